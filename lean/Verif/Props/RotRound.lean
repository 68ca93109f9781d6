/- Property theorems C88: rounding errors of the rotation between lattice and sample. -/
import Verif.Lemmas.RotRoundAux

namespace Ecm.Props
open Ecm Spec

/-- the rotation of a quaternion, of any length -/
noncomputable def rotOf (q : Vec 4) : T3 := quatToTensor fun i => q i / len q

/-- **C88 stress.** The stress handed back by the code is the lattice stress turned by the rotation of the
    stored quaternion, up to 421 roundoffs of its magnitude, in every component. -/
theorem C88_stress (F : Flt) {q : Vec 4} {T : T3} (hT : T.IsSymm) (hq : |len q - 1| ≤ 46 * F.u)
    (hs : frob T ≤ 10 ^ 100) (i : Fin 7) :
    |F.stressOut q (symmToVecds T) i - svecP (rotOf q * T * (rotOf q).transpose) i|
      ≤ (421 * F.u + 1 / 10 ^ 25) * frob T + 34 * F.η := by
  have hu := F.u_nonneg; have hu1 := F.u_le
  have a := abs_le.1 hq
  have l0 : 0 < len q := by linarith [a.1]
  have hR := isRot_of_unit (qn_unit l0)
  obtain ⟨e1, e2⟩ := symmToVecds_rot hR.1 hR.2.1 hT
  have hsym : (rotOf q * T * (rotOf q).transpose).IsSymm := by
    unfold Matrix.IsSymm
    rw [Matrix.transpose_mul, Matrix.transpose_mul, Matrix.transpose_transpose, hT.eq, Matrix.mul_assoc]
  have hfr : frob (rotOf q * T * (rotOf q).transpose) = frob T := by
    have t1 : (rotOf q).transpose * (rotOf q).transpose.transpose = 1 := by
      rw [Matrix.transpose_transpose]; exact hR.2.1
    rw [frob_mul_rot t1, ← frob_transpose, Matrix.transpose_mul, frob_mul_rot t1, frob_transpose]
  rw [← (C01_tensor_round_trip _ hsym).1]
  have f0 := frob_nonneg T
  have hd5 : vecNorm (symmToVecd T) ≤ frob T := by
    rw [← len_symmToVecds hT]
    unfold vecNorm
    refine Real.sqrt_le_sqrt ?_
    rw [Fin.sum_univ_five, Fin.sum_univ_six]
    have := mul_self_nonneg (symmToVecds T 5)
    simp only [symmToVecds] at this ⊢
    simpa using this
  have hw := F.w_pos
  have hη := F.η_nonneg
  have key := Flt.svecP_err (F := F) (S := frob T)
    (v := ![F.mulVec (F.getRotMatVecd (F.quatToTensor q)) (symmToVecd T) 0,
      F.mulVec (F.getRotMatVecd (F.quatToTensor q)) (symmToVecd T) 1,
      F.mulVec (F.getRotMatVecd (F.quatToTensor q)) (symmToVecd T) 2,
      F.mulVec (F.getRotMatVecd (F.quatToTensor q)) (symmToVecd T) 3,
      F.mulVec (F.getRotMatVecd (F.quatToTensor q)) (symmToVecd T) 4, symmToVecds T 5])
    (V := symmToVecds (rotOf q * T * (rotOf q).transpose)) hs (by rw [len_symmToVecds hsym, hfr]) (by
      have hrow : ∀ i : Fin 5, |F.mulVec (F.getRotMatVecd (F.quatToTensor q)) (symmToVecd T) i
          - symmToVecd (rotOf q * T * (rotOf q).transpose) i| ≤ 372 * F.w * frob T + 15 * F.η := fun i => by
        rw [show symmToVecd (rotOf q * T * (rotOf q).transpose) = _ from e1.symm]
        have := Flt.rot_err (F := F) (getRotMatVecd_orth hR.1 hR.2.1).1
          (Flt.computed_entries hq 0 0).1 (fun i j => (Flt.computed_entries hq i j).2)
          (hd5.trans hs) i
        refine this.trans ?_
        have := mul_le_mul_of_nonneg_left hd5 (by positivity : 0 ≤ 372 * F.w)
        linarith
      intro j
      fin_cases j
      · exact hrow 0
      · exact hrow 1
      · exact hrow 2
      · exact hrow 3
      · exact hrow 4
      · show |symmToVecds T 5 - symmToVecds (rotOf q * T * (rotOf q).transpose) 5| ≤ _
        rw [show symmToVecds (rotOf q * T * (rotOf q).transpose) 5 = symmToVecds T 5 from e2, sub_self, abs_zero]
        positivity) i
  have hin : (![symmToVecds T 0, symmToVecds T 1, symmToVecds T 2, symmToVecds T 3, symmToVecds T 4] : Vec 5)
      = symmToVecd T := by
    funext j; fin_cases j <;> rfl
  have hout : F.stressOut q (symmToVecds T) i = _ := rfl
  unfold Flt.stressOut
  rw [hin]
  refine key.trans ?_
  unfold Flt.w
  have : 421 * (F.u + 1 / 10 ^ 28) * frob T ≤ (421 * F.u + 1 / 10 ^ 25) * frob T := by
    refine mul_le_mul_of_nonneg_right ?_ f0
    norm_num
    linarith
  linarith

/-- **C88 deformation rate.** The deformation rate used in the lattice frame is the imposed one turned back,
    up to 372 roundoffs of its magnitude. -/
theorem C88_rate (F : Flt) {q : Vec 4} {D : T3} (hD : IsDev D) (hq : |len q - 1| ≤ 46 * F.u)
    (hs : frob D ≤ 10 ^ 100) (i : Fin 5) :
    |F.rateLat q (symmToVecd D) i - symmToVecd ((rotOf q).transpose * D * rotOf q) i|
      ≤ (372 * F.u + 1 / 10 ^ 25) * frob D + 15 * F.η := by
  have hu := F.u_nonneg; have hu1 := F.u_le
  have a := abs_le.1 hq
  have l0 : 0 < len q := by linarith [a.1]
  have hR := isRot_of_unit (qn_unit l0)
  have f0 := frob_nonneg D
  have hfr : vecNorm (symmToVecd D) = frob D := (frob_vecd hD).symm
  have t1 : (rotOf q).transpose * (rotOf q).transpose.transpose = 1 := by
    rw [Matrix.transpose_transpose]; exact hR.2.1
  have t2 : (rotOf q).transpose.transpose * (rotOf q).transpose = 1 := by
    rw [Matrix.transpose_transpose]; exact hR.1
  have e1 := getRotMatVecd_mulVec t1 t2 hD
  rw [Matrix.transpose_transpose] at e1
  rw [← e1]
  have o := (getRotMatVecd_orth t1 t2).1
  have key := Flt.rot_err (F := F) (a := (F.getRotMatVecd (F.quatToTensor q)).transpose) o
    (Flt.computed_entries hq 0 0).1 (fun i j => by
      have := (Flt.computed_entries hq j i).2
      rw [getRotMatVecd_transpose, Matrix.transpose_apply, Matrix.transpose_apply,
        show (if i = 1 ∧ j = 1 then (len q ^ 4 - 1) / 2 else (0 : ℝ))
          = if j = 1 ∧ i = 1 then (len q ^ 4 - 1) / 2 else 0 from if_congr and_comm rfl rfl]
      exact this) (by rw [hfr]; exact hs) i
  refine le_trans (by exact key) ?_
  rw [hfr]
  unfold Flt.w
  have : 372 * (F.u + 1 / 10 ^ 28) * frob D ≤ (372 * F.u + 1 / 10 ^ 25) * frob D := by
    refine mul_le_mul_of_nonneg_right ?_ f0
    norm_num
    linarith
  linarith

/-- **C88 whole history.** Along any number of steps the stress handed back differs from the lattice stress
    turned by the exact orientation by an amount that grows at most linearly with the number of steps. -/
theorem C88_run (F : Flt) {σ : ℕ → ℤˣ} {xi : ℕ → Vec 3} {q Q : ℕ → Vec 4} {X : ℝ}
    (h : QuatHistory F σ xi q) (hE : ExactHistory σ xi Q) (hq : q 0 = Q 0) (hQ : len (Q 0) = 1)
    (hX : X ≤ 10 ^ 100) (hx : ∀ k, len (xi k) ≤ X) (k : ℕ) {T : T3} (hT : T.IsSymm) (hs : frob T ≤ 10 ^ 100)
    (i : Fin 7) :
    |F.stressOut (F.quatStep (q k) (xi k)) (symmToVecds T) i
        - svecP (quatToTensor (Q (k + 1)) * T * (quatToTensor (Q (k + 1))).transpose) i|
      ≤ (697 * F.u + 1 / 10 ^ 25 + 6 * ((k + 1) * ((92 + 10 * X) * F.u + 1 / 10 ^ 89))) * frob T + 34 * F.η := by
  have hu := F.u_nonneg; have hu1 := F.u_le
  have hx' : ∀ k, len (xi k) ≤ 10 ^ 100 := fun k => (hx k).trans hX
  have q0 : len (q 0) = 1 := by rw [hq]; exact hQ
  have hlen := C71_no_drift F h (by rw [q0]; norm_num) (by rw [q0]; norm_num) hx' k
  have hgrow := C71_error_growth F h hE hq hQ hX hx (k + 1)
  have hqk : q (k + 1) = fun i => ((σ k : ℤ) : ℝ) * F.quatStep (q k) (xi k) i := h k
  have hl : len (F.quatStep (q k) (xi k)) = len (q (k + 1)) := by
    rw [hqk]; exact (vecNorm_sign _ _).symm
  have hQ1 : ∀ k, qn (Q k) = 1 := by
    intro k
    induction k with
    | zero =>
      have h0 : 0 ≤ qn (Q 0) := by unfold qn; positivity
      have e : Real.sqrt (qn (Q 0)) = 1 := by rw [← vecNorm_qn]; exact hQ
      have := Real.sq_sqrt h0
      rw [e] at this; linarith
    | succ k ih =>
      have e := qn_prod (Q k) (expQuat (xi k))
      rw [ih, qn_expQuat, one_mul] at e
      rw [hE k, ← e]
      rcases Int.units_eq_one_or (σ k) with s | s <;> simp [s, qn]
  have a := abs_le.1 hlen
  have l0 : 0 < len (q (k + 1)) := by linarith [a.1]
  have hrot : rotOf (F.quatStep (q k) (xi k)) = rotOf (q (k + 1)) := by
    unfold rotOf
    rw [hl]
    generalize len (q (k + 1)) = n
    rw [hqk]
    rcases Int.units_eq_one_or (σ k) with s | s
    · simp [s]
    · rw [s, ← quatToTensor_neg]
      congr 1
      funext i; simp; ring
  have hst := C88_stress F (q := F.quatStep (q k) (xi k)) hT (by rw [hl]; exact hlen) hs i
  rw [hrot] at hst
  have hR := isRot_of_unit (qn_unit l0)
  have hS := isRot_of_unit (hQ1 (k + 1))
  have d1 := svecP_le (rotOf (q (k + 1)) * T * (rotOf (q (k + 1))).transpose
    - quatToTensor (Q (k + 1)) * T * (quatToTensor (Q (k + 1))).transpose) i
  rw [← svecP_sub] at d1
  have d2 := frob_conj_sub (T := T) hR hS
  have d3 := quatToTensor_lip (qn_unit l0) (hQ1 (k + 1))
  have t2 := vecNorm_sub_le (fun i => q (k + 1) i / len (q (k + 1))) (q (k + 1)) (Q (k + 1))
  have t3 : vecNorm ((fun i => q (k + 1) i / len (q (k + 1))) - q (k + 1)) ≤ 46 * F.u := by
    have e : ((fun i => q (k + 1) i / len (q (k + 1))) - q (k + 1))
        = fun i => (1 - len (q (k + 1))) * (q (k + 1) i * (1 / vecNorm (q (k + 1)))) := by
      funext i
      have hl : len (q (k + 1)) = vecNorm (q (k + 1)) := rfl
      rw [Pi.sub_apply, ← hl]; field_simp
    have h2 := vecNorm_le_affine (n := 4) le_rfl
      (x := ((fun i => q (k + 1) i / len (q (k + 1))) - q (k + 1)))
      (y := fun i => q (k + 1) i * (1 / vecNorm (q (k + 1))))
      (a := |1 - len (q (k + 1))|) (b := 0) (abs_nonneg _) le_rfl (fun i => by
        rw [add_zero, ← abs_mul]; exact le_of_eq (congrArg abs (congrFun e i)))
    rw [Flt.unit_vec _ l0, abs_sub_comm] at h2
    linarith [hlen]
  have t4 : vecNorm (q (k + 1) - Q (k + 1)) ≤ (k + 1) * ((92 + 10 * X) * F.u + 1 / 10 ^ 89) := by
    have := hgrow
    push_cast at this
    exact this
  have f0 := frob_nonneg T
  have d4 : frob (rotOf (q (k + 1)) - quatToTensor (Q (k + 1)))
      ≤ 3 * (46 * F.u + (k + 1) * ((92 + 10 * X) * F.u + 1 / 10 ^ 89)) :=
    le_trans d3 (by linarith)
  have d5 := mul_le_mul_of_nonneg_right d4 f0
  have tri := abs_add_le
    (F.stressOut (F.quatStep (q k) (xi k)) (symmToVecds T) i
      - svecP (rotOf (q (k + 1)) * T * (rotOf (q (k + 1))).transpose) i)
    (svecP (rotOf (q (k + 1)) * T * (rotOf (q (k + 1))).transpose) i
      - svecP (quatToTensor (Q (k + 1)) * T * (quatToTensor (Q (k + 1))).transpose) i)
  rw [sub_add_sub_cancel] at tri
  have d6 : frob (rotOf (q (k + 1)) * T * (rotOf (q (k + 1))).transpose
    - quatToTensor (Q (k + 1)) * T * (quatToTensor (Q (k + 1))).transpose)
      ≤ 2 * frob (rotOf (q (k + 1)) - quatToTensor (Q (k + 1))) * frob T := d2
  nlinarith

/-- **C88 deviator.** The first three components handed back add up to zero up to 1263 roundoffs of the
    magnitude of the stress, so that the split into deviator and pressure is kept. -/
theorem C88_deviator (F : Flt) {q : Vec 4} {T : T3} (hT : T.IsSymm) (hq : |len q - 1| ≤ 46 * F.u)
    (hs : frob T ≤ 10 ^ 100) :
    |F.stressOut q (symmToVecds T) 0 + F.stressOut q (symmToVecds T) 1 + F.stressOut q (symmToVecds T) 2|
      ≤ 3 * ((421 * F.u + 1 / 10 ^ 25) * frob T + 34 * F.η) := by
  have h0 := abs_le.1 (C88_stress F hT hq hs 0)
  have h1 := abs_le.1 (C88_stress F hT hq hs 1)
  have h2 := abs_le.1 (C88_stress F hT hq hs 2)
  have e : svecP (rotOf q * T * (rotOf q).transpose) 0 + svecP (rotOf q * T * (rotOf q).transpose) 1
      + svecP (rotOf q * T * (rotOf q).transpose) 2 = 0 := by
    simp [svecP, dev, Matrix.trace_fin_three]; ring
  rw [abs_le]; constructor <;> linarith [h0.1, h0.2, h1.1, h1.2, h2.1, h2.2]

/-- **C88 double precision.** In double precision every component is right to 5e-14 of the magnitude of the
    stress. -/
theorem C88_double {q : Vec 4} {T : T3} (hT : T.IsSymm) (hq : |len q - 1| ≤ 5 / 10 ^ 15)
    (hs : frob T ≤ 10 ^ 100) (i : Fin 7) :
    |dbl.stressOut q (symmToVecds T) i - svecP (rotOf q * T * (rotOf q).transpose) i|
      ≤ 5 / 10 ^ 14 * frob T + 1 / 10 ^ 200 := by
  have u : dbl.u = 2⁻¹ ^ 53 := rfl
  have h := C88_stress dbl hT (by rw [u]; exact hq.trans (by norm_num)) hs i
  have hη := dbl.η_le
  rw [u] at h hη
  refine h.trans ?_
  have f0 := frob_nonneg T
  have a : (421 * 2⁻¹ ^ 53 + 1 / 10 ^ 25 : ℝ) ≤ 5 / 10 ^ 14 := by norm_num
  have b := mul_le_mul_of_nonneg_right a f0
  have c : 34 * dbl.η ≤ 1 / 10 ^ 200 := by
    have : 34 * ((2:ℝ)⁻¹ ^ 53 / 10 ^ 200) ≤ 1 / 10 ^ 200 := by
      rw [← mul_div_assoc]
      exact div_le_div_of_nonneg_right (by norm_num) (by positivity)
    linarith
  linarith

/-- hypotheses: a stress with normal and shear components, seen after a rotation about the first axis -/
example : (!![300, 20, 0; 20, -100, 5; 0, 5, 50] : T3).IsSymm ∧ frob !![300, 20, 0; 20, -100, 5; 0, 5, 50] ≤ 10 ^ 100 ∧
    |len (![0.6, 0.8, 0, 0] : Vec 4) - 1| ≤ 46 * dbl.u ∧ |len (![0.6, 0.8, 0, 0] : Vec 4) - 1| ≤ 5 / 10 ^ 15 := by
  refine ⟨?_, ?_, ?_, ?_⟩
  · ext i j; fin_cases i <;> fin_cases j <;> rfl
  · refine Real.sqrt_le_iff.2 ⟨by positivity, ?_⟩
    simp [ddot, Fin.sum_univ_three]; norm_num
  · rw [ex_len, sub_self, abs_zero]; have := dbl.u_nonneg; positivity
  · rw [ex_len, sub_self, abs_zero]; positivity

/-- hypotheses of the rate: an extension along the third axis -/
example : IsDev (!![-0.5, 0, 0; 0, -0.5, 0; 0, 0, 1] : T3) ∧ frob !![-0.5, 0, 0; 0, -0.5, 0; 0, 0, 1] ≤ 10 ^ 100 := by
  refine ⟨⟨?_, ?_⟩, ?_⟩
  · ext i j; fin_cases i <;> fin_cases j <;> rfl
  · rw [Matrix.trace_fin_three]; show (-0.5 + -0.5 + 1 : ℝ) = 0; norm_num
  · refine Real.sqrt_le_iff.2 ⟨by positivity, ?_⟩
    simp [ddot, Fin.sum_univ_three]; norm_num

/-- hypotheses of the history: turning by 0.01 about the first axis in every step, starting from a rotation
    about the same axis, in double precision and exactly -/
example : ∃ q Q : ℕ → Vec 4, QuatHistory dbl (fun _ => 1) (fun _ => ![0.01, 0, 0]) q ∧
    ExactHistory (fun _ => 1) (fun _ => ![0.01, 0, 0]) Q ∧ q 0 = Q 0 ∧ len (Q 0) = 1 ∧
    len (![0.01, 0, 0] : Vec 3) ≤ 1 := by
  refine ⟨fun k => Nat.rec ![0.6, 0.8, 0, 0] (fun _ x => dbl.quatStep x ![0.01, 0, 0]) k,
    fun k => Nat.rec ![0.6, 0.8, 0, 0] (fun _ x => quatProd x (expQuat ![0.01, 0, 0])) k,
    fun k => by funext i; simp, fun k => by funext i; simp, rfl, ex_len, ?_⟩
  refine Real.sqrt_le_iff.2 ⟨by positivity, ?_⟩
  simp [dot, Fin.sum_univ_three]; norm_num

end Ecm.Props
