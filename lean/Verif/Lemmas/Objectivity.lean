/- Change of observer: the problem and the update with all sample-frame quantities rotated. -/
import Verif.Lemmas.Stress

namespace Ecm
open Spec Props Matrix

variable {n nH : ℕ}

theorem ddot_eq_trace (A B : T3) : ddot A B = (A.transpose * B).trace := by
  simp [ddot, Matrix.trace, Matrix.mul_apply, Fin.sum_univ_three]; ring

theorem ddot_conj {R : T3} (h : R.transpose * R = 1) (A B : T3) :
    ddot (R * A * R.transpose) (R * B * R.transpose) = ddot A B := by
  rw [ddot_eq_trace, ddot_eq_trace, Matrix.transpose_mul, Matrix.transpose_mul,
    Matrix.transpose_transpose]
  have e4 : R * (A.transpose * R.transpose) * (R * B * R.transpose)
      = R * (A.transpose * B) * R.transpose := by
    calc _ = R * A.transpose * (R.transpose * R) * B * R.transpose := by
          simp only [Matrix.mul_assoc]
      _ = _ := by rw [h, Matrix.mul_one]; simp only [Matrix.mul_assoc]
  rw [e4, trace_conj h]

theorem vecNorm_symmToVecd {A : T3} (hA : IsDev A) :
    vecNorm (symmToVecd A) = Real.sqrt (ddot A A) := by
  rw [← (C02_inner_products A A hA hA).1]; rfl

/-- the problem with deformation rate, spin and lattice orientation rotated -/
noncomputable def Updst.rot (a : Vec 4) (P : Updst n) : Updst n :=
  { P with
    cN := quatProd a P.cN
    dSm := symmToVecd (quatToTensor a * vecdToSymm P.dSm * (quatToTensor a).transpose)
    wSm := (quatToTensor a).mulVec P.wSm }

namespace Updst
variable (P : Updst n) {a : Vec 4}

theorem rot_norm (ha : qn a = 1) : vecNorm (P.rot a).dSm = vecNorm P.dSm := by
  obtain ⟨r1, r2, -⟩ := isRot_of_unit ha
  have hD := vecdToSymm_isDev P.dSm
  show vecNorm (symmToVecd _) = _
  rw [vecNorm_symmToVecd (isDev_conj r2 hD), ddot_conj r2, ← vecNorm_symmToVecd hD,
    symmToVecd_vecdToSymm]

theorem rot_epsdotScaleInv (ha : qn a = 1) : (P.rot a).epsdotScaleInv = P.epsdotScaleInv := by
  unfold epsdotScaleInv
  rw [P.rot_norm ha]
  rfl

theorem rot_rotincrScaleInv (ha : qn a = 1) : (P.rot a).rotincrScaleInv = P.rotincrScaleInv := by
  unfold rotincrScaleInv
  rw [P.rot_epsdotScaleInv ha]
  rfl

theorem rot_cQuat (x : Vec 8) : (P.rot a).cQuat x = quatProd a (P.cQuat x) := by
  show quatProd (quatProd a P.cN) _ = quatProd a (quatProd P.cN _)
  rw [quatProd_assoc]

theorem rot_cMatx (x : Vec 8) : (P.rot a).cMatx x = quatToTensor a * P.cMatx x := by
  unfold cMatx
  rw [rot_cQuat, quatToTensor_prod]

theorem rot_unit (ha : qn a = 1) (hcn : qn P.cN = 1) : qn (P.rot a).cN = 1 := by
  show qn (quatProd a P.cN) = 1
  rw [qn_prod, ha, hcn, one_mul]

theorem rot_vecdToSymm (ha : qn a = 1) : vecdToSymm (P.rot a).dSm
    = quatToTensor a * vecdToSymm P.dSm * (quatToTensor a).transpose :=
  vecdToSymm_symmToVecd _ (isDev_conj (isRot_of_unit ha).2.1 (vecdToSymm_isDev _))

/-- cancellation of the rotation in a product pulled back to the lattice -/
theorem pull_cancel {A : T3} (h : A.transpose * A = 1) (X D Y : T3) :
    (A * X).transpose * (A * D * A.transpose) * (A * Y) = X.transpose * D * Y := by
  rw [Matrix.transpose_mul]
  calc X.transpose * A.transpose * (A * D * A.transpose) * (A * Y)
      = X.transpose * (A.transpose * A) * D * (A.transpose * A) * Y := by
        simp only [Matrix.mul_assoc]
    _ = _ := by rw [h]; simp only [Matrix.mul_one]

theorem rot_dLat (ha : qn a = 1) (hcn : qn P.cN = 1) (x : Vec 8) :
    vecsVMTa ((P.rot a).qr5x5 x) (P.rot a).dSm = vecsVMTa (P.qr5x5 x) P.dSm := by
  have h1 := P.qn_cQuat hcn x
  have h2 := (P.rot a).qn_cQuat (P.rot_unit ha hcn) x
  unfold qr5x5 cMatx
  rw [vecsVMTa_getRotMatVecd h1, vecsVMTa_getRotMatVecd h2, P.rot_vecdToSymm ha]
  show symmToVecd (((P.rot a).cMatx x).transpose * _ * (P.rot a).cMatx x) = _
  rw [rot_cMatx, pull_cancel (isRot_of_unit ha).2.1]
  rfl

theorem rot_wLat (ha : qn a = 1) (x : Vec 8) :
    vecsVMTa ((P.rot a).cMatx x) (P.rot a).wSm = vecsVMTa (P.cMatx x) P.wSm := by
  rw [vecsVMTa_eq, vecsVMTa_eq, rot_cMatx]
  show (quatToTensor a * P.cMatx x).transpose.mulVec ((quatToTensor a).mulVec P.wSm) = _
  rw [Matrix.transpose_mul, Matrix.mulVec_mulVec, Matrix.mul_assoc, (isRot_of_unit ha).2.1,
    Matrix.mul_one]

theorem rot_resid (ha : qn a = 1) (hcn : qn P.cN = 1) (x : Vec 8) :
    (P.rot a).resid x = P.resid x := by
  unfold resid
  rw [P.rot_epsdotScaleInv ha, P.rot_rotincrScaleInv ha]
  congr 1
  · funext i
    unfold residE
    rw [P.rot_dLat ha hcn]
    rfl
  · funext i
    unfold residR
    rw [P.rot_wLat ha]
    rfl

theorem dqt_rot (ha : qn a = 1) (q h : Vec 4) :
    dqt (quatProd a q) (quatProd a h) = quatToTensor a * dqt q h := by
  have _ := ha
  ext i j
  fin_cases i <;> fin_cases j <;>
    simp [dqt, dQuatToTensor, quatProd, quatToTensor, Matrix.mul_apply, Fin.sum_univ_three,
      Fin.sum_univ_four] <;> ring

theorem rot_dCmatx (ha : qn a = 1) (xi : Vec 3) (cn cq : Vec 4) (w : Fin 3) :
    (Matrix.of fun p q => dCmatxDxi xi (quatProd a cn) (quatProd a cq) p q w)
      = quatToTensor a * Matrix.of fun p q => dCmatxDxi xi cn cq p q w := by
  have h := dqt_rot ha cq (dCquatDxiT xi cn w)
  have e : quatProd a (dCquatDxiT xi cn w) = dCquatDxiT xi (quatProd a cn) w := by
    unfold dCquatDxiT; rw [quatProd_assoc]
  rw [e] at h
  exact h

theorem dDapp_rot (ha : qn a = 1) (d : Vec 5) (xi : Vec 3) (cn : Vec 4) (C : Mat 3 3) (cq : Vec 4) :
    dDappDxi (symmToVecd (quatToTensor a * vecdToSymm d * (quatToTensor a).transpose)) xi
      (quatProd a cn) (quatToTensor a * C) (quatProd a cq) = dDappDxi d xi cn C cq := by
  have r2 := (isRot_of_unit ha).2.1
  funext i w
  have e1 := latop_eq (quatToTensor a * C)
    (Matrix.of fun p q => dCmatxDxi xi (quatProd a cn) (quatProd a cq) p q w)
    (symmToVecd (quatToTensor a * vecdToSymm d * (quatToTensor a).transpose)) i
  have e2 := latop_eq C (Matrix.of fun p q => dCmatxDxi xi cn cq p q w) d i
  refine e1.trans (Eq.trans ?_ e2.symm)
  rw [rot_dCmatx ha, vecdToSymm_symmToVecd _ (isDev_conj r2 (vecdToSymm_isDev _)),
    pull_cancel r2, pull_cancel r2]

theorem dWapp_rot (ha : qn a = 1) (v : Vec 3) (xi : Vec 3) (cn cq : Vec 4) :
    dWappDxi ((quatToTensor a).mulVec v) xi (quatProd a cn) (quatProd a cq)
      = dWappDxi v xi cn cq := by
  have r2 := (isRot_of_unit ha).2.1
  funext i w
  have e1 := wveccp_eq (Matrix.of fun p q => dCmatxDxi xi (quatProd a cn) (quatProd a cq) p q w)
    ((quatToTensor a).mulVec v) i
  have e2 := wveccp_eq (Matrix.of fun p q => dCmatxDxi xi cn cq p q w) v i
  refine e1.trans (Eq.trans ?_ e2.symm)
  rw [rot_dCmatx ha, Matrix.transpose_mul, Matrix.mulVec_mulVec, Matrix.mul_assoc, r2,
    Matrix.mul_one]

theorem rot_jacU (ha : qn a = 1) (x : Vec 8) : (P.rot a).jacU x = P.jacU x := by
  unfold jacU
  rw [rot_cMatx, rot_cQuat]
  have e1 := dDapp_rot ha P.dSm (xiF x) P.cN (P.cMatx x) (P.cQuat x)
  have e2 := dWapp_rot ha P.wSm (xiF x) P.cN (P.cQuat x)
  have e3 : (P.rot a).dSm
    = symmToVecd (quatToTensor a * vecdToSymm P.dSm * (quatToTensor a).transpose) := rfl
  have e4 : (P.rot a).cN = quatProd a P.cN := rfl
  have e5 : (P.rot a).wSm = (quatToTensor a).mulVec P.wSm := rfl
  rw [e3, e4, e5, e1, e2]
  rfl

theorem rot_jac (ha : qn a = 1) (x : Vec 8) : (P.rot a).jac x = P.jac x := by
  funext i j
  unfold jac
  rw [P.rot_jacU ha, P.rot_epsdotScaleInv ha, P.rot_rotincrScaleInv ha]

theorem rot_problem (ha : qn a = 1) (hcn : qn P.cN = 1) : (P.rot a).problem = P.problem := by
  funext x
  unfold problem
  rw [P.rot_resid ha hcn, P.rot_jac ha]

end Updst

/-! ### Every rotation comes from a unit quaternion -/

theorem exists_quat {R : T3} (h : IsRot R) : ∃ a : Vec 4, qn a = 1 ∧ quatToTensor a = R := by
  have r := mul_transpose_entries h.1
  have e : ∀ i j, (R * R.transpose) i j = (1 : T3) i j := fun i j => by rw [h.1]
  have f : ∀ i j, (R.transpose * R) i j = (1 : T3) i j := fun i j => by rw [h.2.1]
  have g : ∀ i j, R.adjugate i j = R j i := fun i j => by rw [IsRot.adjugate h]; rfl
  simp only [Matrix.mul_apply, Matrix.transpose_apply, Fin.sum_univ_three] at e f
  rw [Matrix.adjugate_fin_three] at g
  have e00 := e 0 0; have e01 := e 0 1; have e02 := e 0 2; have e11 := e 1 1; have e12 := e 1 2
  have e22 := e 2 2
  have f00 := f 0 0; have f01 := f 0 1; have f02 := f 0 2; have f11 := f 1 1; have f12 := f 1 2
  have f22 := f 2 2
  have g00 := g 0 0; have g01 := g 0 1; have g02 := g 0 2
  have g10 := g 1 0; have g11 := g 1 1; have g12 := g 1 2
  have g20 := g 2 0; have g21 := g 2 1; have g22 := g 2 2
  simp at e00 e01 e02 e11 e12 e22 f00 f01 f02 f11 f12 f22 g00 g01 g02 g10 g11 g12 g20 g21 g22
  let N : Mat 4 4 := !![1 + R 0 0 + R 1 1 + R 2 2, R 2 1 - R 1 2, R 0 2 - R 2 0, R 1 0 - R 0 1;
    R 2 1 - R 1 2, 1 + R 0 0 - R 1 1 - R 2 2, R 0 1 + R 1 0, R 0 2 + R 2 0;
    R 0 2 - R 2 0, R 0 1 + R 1 0, 1 - R 0 0 + R 1 1 - R 2 2, R 1 2 + R 2 1;
    R 1 0 - R 0 1, R 0 2 + R 2 0, R 1 2 + R 2 1, 1 - R 0 0 - R 1 1 + R 2 2]
  have hN : ∀ k i j, N k i * N k j = N k k * N i j := by
    intro k i j
    fin_cases k <;> fin_cases i <;> fin_cases j <;> simp [N] <;> linarith
  have hk : ∃ k, 0 < N k k := by
    by_contra hc
    push Not at hc
    have h0 := hc 0; have h1 := hc 1; have h2 := hc 2; have h3 := hc 3
    simp [N] at h0 h1 h2 h3
    linarith
  obtain ⟨k, hk⟩ := hk
  have hs := Real.sq_sqrt hk.le
  have hs0 := Real.sqrt_pos.2 hk
  generalize Real.sqrt (N k k) = s at *
  have hm : ∀ i j, (N k i / (2 * s)) * (N k j / (2 * s)) = N i j / 4 := by
    intro i j
    have := hN k i j
    field_simp
    rw [this, ← hs]; ring
  have m : ∀ i j, (fun i => N k i / (2 * s)) i * (fun i => N k i / (2 * s)) j = N i j / 4 := hm
  refine ⟨fun i => N k i / (2 * s), ?_, ?_⟩
  · generalize (fun i => N k i / (2 * s)) = a at *
    unfold qn
    have a0 := m 0 0; have a1 := m 1 1; have a2 := m 2 2; have a3 := m 3 3
    simp [N] at a0 a1 a2 a3
    linarith
  · generalize (fun i => N k i / (2 * s)) = a at *
    ext i j
    fin_cases i <;> fin_cases j <;> simp [quatToTensor, m] <;> simp [N] <;> ring

end Ecm
