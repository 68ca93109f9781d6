/- The history and the stress returned by an update, in terms of tensors. -/
import Verif.Lemmas.Response
import Verif.Lemmas.Balance
import Verif.Props.Elast
import Verif.Props.Notation

namespace Ecm
open Spec Props Matrix

variable {n nH : ℕ}

/-- the named history of a point -/
abbrev histOf (m : Mem nH n) : Hist nH n := Hist.ofArray m.hist

theorem OkStep.hist_eq {X : Ext} {M : Material n nH} {inp : Inputs} {m m' : Mem nH n}
    (s : OkStep X M inp m m') : histOf m'
      = Step.newHist X inp (histOf m) s.hU s.P (Step.solve X inp s.P) m.mtan.isSome := by
  unfold histOf
  rw [s.hhist, Hist.ofArray_toArray]

theorem flipQuat_cases (q p : Vec 4) :
    Step.flipQuat q p = q ∧ 0 ≤ dot q p ∨ Step.flipQuat q p = -q ∧ dot q p < 0 := by
  unfold Step.flipQuat
  have e : vecsyadotb q p = dot q p := rfl
  rw [e]
  split_ifs with h
  · exact .inr ⟨rfl, h⟩
  · exact .inl ⟨rfl, not_lt.1 h⟩

theorem quatToTensor_flip (q p : Vec 4) : quatToTensor (Step.flipQuat q p) = quatToTensor q := by
  rcases flipQuat_cases q p with ⟨h, -⟩ | ⟨h, -⟩
  · rw [h]
  · rw [h, quatToTensor_neg]

theorem dot_neg4 (a b : Vec 4) : dot (-a) b = -dot a b := by
  simp [dot, Fin.sum_univ_four]

/-- elastic strain tensor of a relative volume `v` and five scaled deviatoric components `e`: the
    deviatoric part is `v^(-1/3)` times the tensor with these components, the trace is `log v` -/
noncomputable def elasticStrain (v : ℝ) (e : Vec 5) : T3 :=
  (1 / v ^ (1 / 3 : ℝ)) • vecdToSymm e + (Real.log v / 3) • (1 : T3)

/-- Cauchy stress of a crystal at relative volume `v`, elastic strain `E`, equation-of-state pressure
    `p` and energy `eV`, in lattice axes: reference law with the bulk term replaced by the pressure,
    with the anisotropic thermal stress of hexagonal crystals along diag(-1,-1,2)/√6 -/
noncomputable def latticeStress (el : Elast) (v p eV : ℝ) (E : T3) : T3 :=
  (1 / v) • (dev (refStress el E)
    - (v * (el.gVecd2 * eV)) • ((1 / Real.sqrt 6) • Matrix.diagonal ![-1, -1, 2])
    + ((refStress el E).trace / 3 - el.kBulkMod * E.trace - v * p) • (1 : T3))

theorem refStress_symm (el : Elast) (E : T3) (hE : E.IsSymm) : (refStress el E).IsSymm := by
  have h10 : E 1 0 = E 0 1 := hE.apply 0 1
  have h20 : E 2 0 = E 0 2 := hE.apply 0 2
  have h21 : E 2 1 = E 1 2 := hE.apply 1 2
  ext i j
  cases el <;> fin_cases i <;> fin_cases j <;>
    simp [refStress, cubicStress, hexagStress, h10, h20, h21]

theorem elasticStrain_symm (v : ℝ) (e : Vec 5) : (elasticStrain v e).IsSymm :=
  ((vecdToSymm_isDev e).1.smul _).add (Matrix.isSymm_one.smul _)

theorem elasticStrain_trace (v : ℝ) (e : Vec 5) : (elasticStrain v e).trace = Real.log v := by
  unfold elasticStrain
  rw [Matrix.trace_add, Matrix.trace_smul, Matrix.trace_smul, (vecdToSymm_isDev e).2,
    Matrix.trace_one]
  simp

theorem dev_symm {A : T3} (h : A.IsSymm) : (dev A).IsSymm :=
  h.sub (Matrix.isSymm_one.smul _)

theorem latticeStress_symm (el : Elast) (v p eV : ℝ) (E : T3) (hE : E.IsSymm) :
    (latticeStress el v p eV E).IsSymm :=
  ((((dev_symm (refStress_symm el E hE)).sub
    (((Matrix.isSymm_diagonal _).smul _).smul _))).add (Matrix.isSymm_one.smul _)).smul _

theorem symmToVecd_sub (A B : T3) : symmToVecd (A - B) = symmToVecd A - symmToVecd B := by
  ext i
  fin_cases i <;> simp [symmToVecd] <;> ring

theorem symmToVecd_one : symmToVecd (1 : T3) = 0 := by
  ext i
  fin_cases i <;> simp [symmToVecd]
  right; norm_num

theorem symmToVecds_castSucc (A : T3) (i : Fin 5) : symmToVecds A i.castSucc = symmToVecd A i := by
  fin_cases i <;> rfl

/-- strain components handed to the elasticity model -/
theorem symmToVecds_elasticStrain {n : ℕ} (P : Updst n) (hv : 0 < P.detV) (e : Vec 5) :
    symmToVecds (elasticStrain P.detV e)
      = ![vecsVxa P.aVri e 0, vecsVxa P.aVri e 1, vecsVxa P.aVri e 2, vecsVxa P.aVri e 3,
          vecsVxa P.aVri e 4, sqr3 * Real.log P.aV] := by
  have h5 : symmToVecd (elasticStrain P.detV e) = P.aVri • e := by
    unfold elasticStrain
    rw [symmToVecd_add, symmToVecd_smul, symmToVecd_smul, symmToVecd_one, symmToVecd_vecdToSymm]
    simp [Updst.aVri, Updst.aV]
  have ht : symmToVecds (elasticStrain P.detV e) 5 = sqr3 * Real.log P.aV := by
    show traceToVecdsS (trace3 _) = _
    have : trace3 (elasticStrain P.detV e) = Real.log P.detV := by
      rw [← elasticStrain_trace P.detV e, Matrix.trace_fin_three]; rfl
    rw [this]
    unfold traceToVecdsS Updst.aV
    rw [Real.log_rpow hv]
    sqr_ring
  ext i
  refine Fin.lastCases ?_ (fun j => ?_) i
  · exact ht
  · rw [symmToVecds_castSucc, h5]
    fin_cases j <;> rfl

/-- lattice components of the stress computed by the update -/
theorem elastNEtoC_eq {n : ℕ} (P : Updst n) (hv : 0 < P.detV) (e : Vec 5) :
    P.elastNEtoC e
      = symmToVecds (latticeStress P.el P.detV P.pEos P.eVref (elasticStrain P.detV e)) := by
  have hE := elasticStrain_symm P.detV e
  have hlaw := C47_elastic_law P.el (elasticStrain P.detV e) hE P.pEos P.eVref
  rw [elasticStrain_trace, Real.exp_log hv, symmToVecds_elasticStrain P hv] at hlaw
  have hT : ∀ i, P.elastNEtoC e i = 1 / P.detV * P.elastNEtoT e i := fun i => rfl
  ext i
  refine Fin.lastCases ?_ (fun j => ?_) i
  · rw [hT]
    show 1 / P.detV * P.elastNEtoT e 5 = traceToVecdsS (trace3 _)
    have h2 : P.elastNEtoT e 5 = _ := hlaw.2
    have h3 : ∀ A : T3, trace3 A = A.trace := fun A => (Matrix.trace_fin_three A).symm
    rw [h2, h3]
    unfold latticeStress
    rw [Matrix.trace_smul, Matrix.trace_add, Matrix.trace_sub, Matrix.trace_smul, Matrix.trace_smul,
      Matrix.trace_smul, Matrix.trace_one, elasticStrain_trace]
    have h4 : ∀ A : T3, (dev A).trace = 0 := fun A => by
      simp [dev, Matrix.trace_fin_three]
    rw [h4]
    have hi : ∀ x : ℝ, x / Real.sqrt 3 = x * (Real.sqrt 3 / 3) := by
      intro x; have := s3_pos; field_simp; rw [s3_sq]
    rw [hi, hi]
    simp only [traceToVecdsS, Matrix.trace_fin_three, Matrix.diagonal_apply, Matrix.cons_val,
      smul_eq_mul, if_true, Fintype.card_fin]
    have : (P.detV)⁻¹ * P.detV = 1 := inv_mul_cancel₀ hv.ne'
    push_cast
    sqr_ring
  · rw [hT, symmToVecds_castSucc]
    have h2 : P.elastNEtoT e j.castSucc = _ := hlaw.1 j
    rw [h2]
    unfold latticeStress
    rw [symmToVecd_smul, symmToVecd_add, symmToVecd_sub, symmToVecd_dev, symmToVecd_smul,
      symmToVecd_smul, symmToVecd_smul, symmToVecd_one]
    have h6 : (1 / Real.sqrt 6) • symmToVecd (Matrix.diagonal ![-1, -1, 2])
        = fun j : Fin 5 => if j = 1 then 1 else 0 := by
      ext j
      fin_cases j <;> simp [symmToVecd]
      have h2 : Real.sqrt 2 * Real.sqrt 3 = Real.sqrt 6 := by
        rw [← Real.sqrt_mul (by norm_num)]; norm_num
      have h6 : Real.sqrt 6 ≠ 0 := by positivity
      sqr_ring
      rw [mul_assoc, h2, inv_mul_cancel₀ h6]
    rw [h6]
    simp

/-- what the returned stress is, for any quaternion giving the same rotation -/
theorem stressOf_eq {n : ℕ} (P : Updst n) (hv : 0 < P.detV) (e : Vec 5) (q : Vec 4)
    (hq : qn q = 1) :
    Step.stressOf P e q = svecP (quatToTensor q
      * latticeStress P.el P.detV P.pEos P.eVref (elasticStrain P.detV e)
      * (quatToTensor q).transpose) := by
  set S := latticeStress P.el P.detV P.pEos P.eVref (elasticStrain P.detV e) with hS
  have hSs : S.IsSymm := latticeStress_symm _ _ _ _ _ (elasticStrain_symm _ _)
  obtain ⟨r1, r2, -⟩ := isRot_of_unit hq
  set R := quatToTensor q with hR
  have hsy : (R * S * R.transpose).IsSymm := by
    unfold Matrix.IsSymm
    rw [Matrix.transpose_mul, Matrix.transpose_mul, Matrix.transpose_transpose, hSs.eq,
      Matrix.mul_assoc]
  rw [← (C01_tensor_round_trip _ hsy).1]
  unfold Step.stressOf
  simp only
  rw [elastNEtoC_eq P hv, ← hS, ← hR]
  congr 1
  have hdev : IsDev (dev S) := ⟨dev_symm hSs, by simp [dev, Matrix.trace_fin_three]⟩
  have h5 : vecsVMa (getRotMatVecd R) (fun i : Fin 5 => symmToVecds S i.castSucc)
      = symmToVecd (R * S * R.transpose) := by
    have : (fun i : Fin 5 => symmToVecds S i.castSucc) = symmToVecd (dev S) := by
      rw [symmToVecd_dev]; exact funext fun i => symmToVecds_castSucc S i
    rw [this, hR, vecsVMa_rot hq hdev, ← hR]
    have hd : R * dev S * R.transpose = dev (R * S * R.transpose) := by
      have ht : (R * S * R.transpose).trace = S.trace := trace_conj r2
      unfold dev
      rw [ht, Matrix.mul_sub, Matrix.sub_mul, Matrix.mul_smul, Matrix.smul_mul, Matrix.mul_one, r1]
    rw [hd, symmToVecd_dev]
  rw [h5]
  ext i
  refine Fin.lastCases ?_ (fun j => ?_) i
  · show traceToVecdsS (trace3 S) = traceToVecdsS (trace3 (R * S * R.transpose))
    have h3 : ∀ A : T3, trace3 A = A.trace := fun A => (Matrix.trace_fin_three A).symm
    have ht : (R * S * R.transpose).trace = S.trace := trace_conj r2
    rw [h3, h3, ht]
  · rw [symmToVecds_castSucc]
    fin_cases j <;> rfl

end Ecm
