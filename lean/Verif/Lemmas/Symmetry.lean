/- Crystal symmetry: the update problem with the lattice axes turned by a symmetry operation. -/
import Verif.Lemmas.Objectivity

namespace Ecm
open Spec Props Matrix

variable {n nH : ℕ}

/-- conjugate quaternion -/
def qconj (h : Vec 4) : Vec 4 := ![h 0, -h 1, -h 2, -h 3]

theorem qn_qconj (h : Vec 4) : qn (qconj h) = qn h := by simp [qn, qconj]

theorem quatToTensor_qconj (h : Vec 4) : quatToTensor (qconj h) = (quatToTensor h).transpose := by
  ext i j
  fin_cases i <;> fin_cases j <;> simp [quatToTensor, qconj] <;> ring

theorem quatProd_qconj_cancel {h : Vec 4} (hh : qn h = 1) (a : Vec 4) :
    quatProd (qconj h) (quatProd h a) = a := by
  have e : h 0 * h 0 + h 1 * h 1 + h 2 * h 2 + h 3 * h 3 = 1 := by
    rw [← hh]; simp [qn]; ring
  ext i
  fin_cases i <;> simp [quatProd, qconj]
  · linear_combination a 0 * e
  · linear_combination a 1 * e
  · linear_combination a 2 * e
  · linear_combination a 3 * e

/-- conjugation by a unit quaternion rotates the vector part -/
theorem quatProd_conj {h : Vec 4} (hh : qn h = 1) (c s : ℝ) (v : Vec 3) :
    quatProd (quatProd h ![c, s * v 0, s * v 1, s * v 2]) (qconj h)
      = ![c, s * ((quatToTensor h).mulVec v) 0, s * ((quatToTensor h).mulVec v) 1,
          s * ((quatToTensor h).mulVec v) 2] := by
  have e : h 0 * h 0 + h 1 * h 1 + h 2 * h 2 + h 3 * h 3 = 1 := by
    rw [← hh]; simp [qn]; ring
  ext i
  fin_cases i <;> simp [quatProd, qconj, quatToTensor, Matrix.mulVec, dotProduct, Fin.sum_univ_three]
  · linear_combination c * e
  · ring
  · ring
  · ring

theorem vecNorm_rot {h : Vec 4} (hh : qn h = 1) (v : Vec 3) :
    vecNorm ((quatToTensor h).mulVec v) = vecNorm v := by
  rw [← len_eq_vecNorm, ← len_eq_vecNorm]
  exact len_mulVec_rot (isRot_of_unit hh).2.1 v

/-- rotation increments follow the lattice axes; the threshold of the routine excludes increments of
    length up to 1e-90 other than zero -/
theorem emapToQuat_conj {h : Vec 4} (hh : qn h = 1) (v : Vec 3) (hv : v = 0 ∨ idpTinySqrt < vecNorm v) :
    emapToQuat ((quatToTensor h).mulVec v) = quatProd (quatProd h (emapToQuat v)) (qconj h) := by
  rcases hv with rfl | hv
  · rw [Matrix.mulVec_zero, emapToQuat_zero]
    have := quatProd_conj hh 1 0 0
    simp at this
    exact this.symm
  · have e1 : emapToQuat v = ![Real.cos (vecNorm v * 0.5),
        Real.sin (vecNorm v * 0.5) * (1 / vecNorm v) * v 0,
        Real.sin (vecNorm v * 0.5) * (1 / vecNorm v) * v 1,
        Real.sin (vecNorm v * 0.5) * (1 / vecNorm v) * v 2] := by
      simp only [emapToQuat, if_pos hv]
      ext i
      fin_cases i <;> simp [invToQuat] <;> ring
    have e2 : emapToQuat ((quatToTensor h).mulVec v) = ![Real.cos (vecNorm v * 0.5),
        Real.sin (vecNorm v * 0.5) * (1 / vecNorm v) * ((quatToTensor h).mulVec v) 0,
        Real.sin (vecNorm v * 0.5) * (1 / vecNorm v) * ((quatToTensor h).mulVec v) 1,
        Real.sin (vecNorm v * 0.5) * (1 / vecNorm v) * ((quatToTensor h).mulVec v) 2] := by
      simp only [emapToQuat, vecNorm_rot hh, if_pos hv]
      ext i
      fin_cases i <;> simp [invToQuat] <;> ring
    rw [e1, e2, quatProd_conj hh]

/-- components of a deviatoric lattice tensor in turned lattice axes -/
noncomputable def turnE (h : Vec 4) (e : Vec 5) : Vec 5 :=
  symmToVecd (quatToTensor h * vecdToSymm e * (quatToTensor h).transpose)

theorem vecdToSymm_turnE {h : Vec 4} (hh : qn h = 1) (e : Vec 5) :
    vecdToSymm (turnE h e) = quatToTensor h * vecdToSymm e * (quatToTensor h).transpose :=
  vecdToSymm_symmToVecd _ (isDev_conj (isRot_of_unit hh).2.1 (vecdToSymm_isDev _))

theorem turnE_eq {h : Vec 4} (hh : qn h = 1) (e : Vec 5) :
    turnE h e = (getRotMatVecd (quatToTensor h)).mulVec e := by
  obtain ⟨r1, r2, -⟩ := isRot_of_unit hh
  exact (getRotMatVecd_mulVec' r1 r2 e).symm

theorem turnE_symmToVecd {h : Vec 4} {A : T3} (hA : IsDev A) :
    turnE h (symmToVecd A) = symmToVecd (quatToTensor h * A * (quatToTensor h).transpose) := by
  unfold turnE; rw [vecdToSymm_symmToVecd A hA]

/-- the unknowns in turned lattice axes -/
noncomputable def turnX (h : Vec 4) (x : Vec 8) : Vec 8 :=
  block8 (turnE h fun i => x (iE i)) ((quatToTensor h).mulVec fun i => x (iR i))

theorem turnX_e (h : Vec 4) (x : Vec 8) : (fun i => turnX h x (iE i)) = turnE h fun i => x (iE i) := by
  funext i; simp [turnX]

theorem turnX_r (h : Vec 4) (x : Vec 8) :
    (fun i => turnX h x (iR i)) = (quatToTensor h).mulVec fun i => x (iR i) := by
  funext i; simp [turnX]

/-- the problem in turned lattice axes -/
noncomputable def Updst.turn (h : Vec 4) (P : Updst n) : Updst n :=
  { P with
    eN := turnE h P.eN
    cN := quatProd P.cN (qconj h) }

/-- a symmetry of a crystal: the operation permutes the slip systems up to sign, between systems that
    slip at the same rate, of the same or the opposite sign, under the same or the opposite stress, and
    leaves the elastic law unchanged -/
structure Updst.Symmetry (P : Updst n) (m s : Fin n → Vec 3) (H : T3) where
  geom : P.geom = slipPQ m s
  slip : ∀ i, IsSlipSystem (m i) (s i)
  π : Equiv.Perm (Fin n)
  ε : Fin n → ℝ
  sgn : ∀ i, ε i = 1 ∨ ε i = -1
  map : ∀ i, H * dyad (s i) (m i) * H.transpose = ε i • dyad (s (π i)) (m (π i))
  rate : ∀ i τ, (P.gd (π i) (ε i * τ)).gdot = ε i * (P.gd i τ).gdot
  elast : ∀ E : T3, E.IsSymm → latticeStress P.el P.detV P.pEos P.eVref (H * E * H.transpose)
    = H * latticeStress P.el P.detV P.pEos P.eVref E * H.transpose

/-- equal systems that are odd in the stress -/
theorem rate_of_odd {gd : Fin n → ℝ → Gd} {π : Equiv.Perm (Fin n)} {ε : Fin n → ℝ}
    (sgn : ∀ i, ε i = 1 ∨ ε i = -1) (same : ∀ i τ, (gd (π i) τ).gdot = (gd i τ).gdot)
    (odd : ∀ i τ, (gd i (-τ)).gdot = -(gd i τ).gdot) (i : Fin n) (τ : ℝ) :
    (gd (π i) (ε i * τ)).gdot = ε i * (gd i τ).gdot := by
  rw [same]
  rcases sgn i with h | h <;> rw [h]
  · simp
  · rw [neg_one_mul, odd, neg_one_mul]

namespace Updst
variable (P : Updst n) {h : Vec 4}

theorem turn_eF (hh : qn h = 1) (x : Vec 8) : (P.turn h).eF (turnX h x) = turnE h (P.eF x) := by
  funext i
  have e : (P.turn h).eF (turnX h x) i = eScale * turnE h (fun i => x (iE i)) i + turnE h P.eN i := by
    show eScale * (fun i => turnX h x (iE i)) i + _ = _
    rw [turnX_e]; rfl
  rw [e, turnE_eq hh, turnE_eq hh, turnE_eq hh]
  have : P.eF x = eScale • (fun i => x (iE i)) + P.eN := rfl
  rw [this, Matrix.mulVec_add, Matrix.mulVec_smul]
  rfl

theorem turn_xiF (x : Vec 8) : xiF (turnX h x) = (quatToTensor h).mulVec (xiF x) := by
  have : ∀ y : Vec 8, xiF y = rScale • (fun i => y (iR i)) := fun y => rfl
  rw [this, this, turnX_r, Matrix.mulVec_smul]

theorem turn_cQuat (hh : qn h = 1) (x : Vec 8) (hx : xiF x = 0 ∨ idpTinySqrt < vecNorm (xiF x)) :
    (P.turn h).cQuat (turnX h x) = quatProd (P.cQuat x) (qconj h) := by
  show quatProd (quatProd P.cN (qconj h)) (emapToQuat (xiF (turnX h x))) = _
  rw [turn_xiF, emapToQuat_conj hh _ hx]
  show _ = quatProd (quatProd P.cN (emapToQuat (xiF x))) (qconj h)
  rw [quatProd_assoc, quatProd_assoc h, quatProd_qconj_cancel hh, quatProd_assoc]

theorem turn_cMatx (hh : qn h = 1) (x : Vec 8) (hx : xiF x = 0 ∨ idpTinySqrt < vecNorm (xiF x)) :
    (P.turn h).cMatx (turnX h x) = P.cMatx x * (quatToTensor h).transpose := by
  unfold cMatx
  rw [turn_cQuat P hh x hx, quatToTensor_prod, quatToTensor_qconj]

theorem turn_cN (hh : qn h = 1) (hcn : qn P.cN = 1) : qn (P.turn h).cN = 1 := by
  show qn (quatProd P.cN (qconj h)) = 1
  rw [qn_prod, qn_qconj, hh, hcn, one_mul]

end Updst

theorem elasticStrain_turn {h : Vec 4} (hh : qn h = 1) (v : ℝ) (e : Vec 5) :
    elasticStrain v (turnE h e)
      = quatToTensor h * elasticStrain v e * (quatToTensor h).transpose := by
  unfold elasticStrain
  rw [vecdToSymm_turnE hh, Matrix.mul_add, Matrix.add_mul, Matrix.mul_smul, Matrix.mul_smul,
    Matrix.smul_mul, Matrix.smul_mul, Matrix.mul_one, (isRot_of_unit hh).1]

theorem dot_mulVec_eq_ddot (T : T3) (m s : Vec 3) : dot s (T.mulVec m) = ddot T (dyad s m) := by
  simp [dot, ddot, dyad, Matrix.mulVec, dotProduct, Fin.sum_univ_three]; ring

theorem ddot_smul_right (k : ℝ) (A B : T3) : ddot A (k • B) = k * ddot A B := by
  simp [ddot, Fin.sum_univ_three]; ring

namespace Updst
variable (P : Updst n) {h : Vec 4} {m s : Fin n → Vec 3}

theorem elastNEtoT_eq (hv : 0 < P.detV) (e : Vec 5) (j : Fin 5) : P.elastNEtoT e j.castSucc
    = symmToVecd (P.detV • latticeStress P.el P.detV P.pEos P.eVref (elasticStrain P.detV e)) j := by
  have h1 : P.elastNEtoC e j.castSucc = 1 / P.detV * P.elastNEtoT e j.castSucc := rfl
  have h2 := congrFun (elastNEtoC_eq P hv e) j.castSucc
  rw [symmToVecds_castSucc] at h2
  rw [symmToVecd_smul, Pi.smul_apply, smul_eq_mul, ← h2, h1]
  have := hv.ne'
  field_simp

theorem taua_ddot (hv : 0 < P.detV) (hg : P.geom = slipPQ m s) (hs : ∀ i, IsSlipSystem (m i) (s i))
    (x : Vec 8) (i : Fin n) : P.taua x i
      = P.detV * ddot (latticeStress P.el P.detV P.pEos P.eVref (elasticStrain P.detV (P.eF x)))
        (dyad (s i) (m i)) := by
  have hT : (P.detV • latticeStress P.el P.detV P.pEos P.eVref
      (elasticStrain P.detV (P.eF x))).IsSymm :=
    (latticeStress_symm _ _ _ _ _ (elasticStrain_symm _ _)).smul _
  have h1 := C18_resolved_shear m s _ hT i (hs i).2.2
  rw [dot_mulVec_eq_ddot] at h1
  have h2 : ddot (P.detV • latticeStress P.el P.detV P.pEos P.eVref
      (elasticStrain P.detV (P.eF x))) (dyad (s i) (m i)) = P.detV * ddot
      (latticeStress P.el P.detV P.pEos P.eVref (elasticStrain P.detV (P.eF x)))
      (dyad (s i) (m i)) := by
    simp [ddot, Finset.mul_sum, mul_assoc]
  rw [← h2, ← h1, ← hg]
  unfold taua
  congr 1
  exact funext fun j => P.elastNEtoT_eq hv _ j

variable (S : P.Symmetry m s (quatToTensor h))
include S

theorem turn_taua (hh : qn h = 1) (hv : 0 < P.detV) (x : Vec 8) (i : Fin n) :
    (P.turn h).taua (turnX h x) (S.π i) = S.ε i * P.taua x i := by
  rw [taua_ddot P hv S.geom S.slip x i,
    taua_ddot (P.turn h) hv S.geom S.slip (turnX h x) (S.π i), P.turn_eF hh]
  show P.detV * ddot (latticeStress P.el P.detV P.pEos P.eVref (elasticStrain P.detV _)) _ = _
  rw [elasticStrain_turn hh, S.elast _ (elasticStrain_symm _ _)]
  have e : dyad (s (S.π i)) (m (S.π i))
      = S.ε i • (quatToTensor h * dyad (s i) (m i) * (quatToTensor h).transpose) := by
    rw [S.map i, smul_smul]
    rcases S.sgn i with h | h <;> rw [h] <;> simp
  rw [e, ddot_smul_right, ddot_conj (isRot_of_unit hh).2.1]
  ring

theorem turn_gdot (hh : qn h = 1) (hv : 0 < P.detV) (x : Vec 8) (i : Fin n) :
    (P.turn h).gdot (turnX h x) (S.π i) = S.ε i * P.gdot x i := by
  show (P.gd (S.π i) ((P.turn h).taua (turnX h x) (S.π i))).gdot = S.ε i * (P.gd i (P.taua x i)).gdot
  rw [P.turn_taua S hh hv, S.rate]

theorem turn_slipGrad (hh : qn h = 1) (hv : 0 < P.detV) (x : Vec 8) :
    slipGrad ((P.turn h).gdot (turnX h x)) s m
      = quatToTensor h * slipGrad (P.gdot x) s m * (quatToTensor h).transpose := by
  unfold slipGrad
  rw [← Equiv.sum_comp S.π, Matrix.mul_sum, Matrix.sum_mul]
  refine Finset.sum_congr rfl fun i _ => ?_
  rw [P.turn_gdot S hh hv, Matrix.mul_smul, Matrix.smul_mul, S.map i, smul_smul, mul_comm]

end Updst

theorem dev_conj {R : T3} (h1 : R * R.transpose = 1) (h2 : R.transpose * R = 1) (A : T3) :
    dev (R * A * R.transpose) = R * dev A * R.transpose := by
  unfold dev
  rw [trace_conj h2, Matrix.mul_sub, Matrix.sub_mul, Matrix.mul_smul, Matrix.smul_mul,
    Matrix.mul_one, h1]

theorem sym_conj (R A : T3) : sym (R * A * R.transpose) = R * sym A * R.transpose := by
  unfold sym
  simp only [Matrix.transpose_mul, Matrix.transpose_transpose, Matrix.mul_smul, Matrix.smul_mul,
    Matrix.mul_add, Matrix.add_mul, Matrix.mul_assoc]

namespace Updst
variable (P : Updst n) {h : Vec 4} {m s : Fin n → Vec 3} (S : P.Symmetry m s (quatToTensor h))
include S

theorem turn_residE (hh : qn h = 1) (hcn : qn P.cN = 1) (hv : 0 < P.detV) (x : Vec 8)
    (hx : xiF x = 0 ∨ idpTinySqrt < vecNorm (xiF x)) :
    (P.turn h).residE (turnX h x) = turnE h (P.residE x) := by
  obtain ⟨r1, r2, -⟩ := isRot_of_unit hh
  have hr := isRot_of_unit (P.qn_cQuat hcn x)
  set D := vecdToSymm P.dSm with hD
  set E := vecdToSymm (P.eF x) with hE
  set E0 := vecdToSymm P.eN with hE0
  have k1 := P.residE_eq S.geom hcn (D := D) (E := E) (E0 := E0) (vecdToSymm_isDev _) x
    (symmToVecd_vecdToSymm _) (symmToVecd_vecdToSymm _) (symmToVecd_vecdToSymm _)
  have k2 := (P.turn h).residE_eq S.geom (P.turn_cN hh hcn) (D := D)
    (E := quatToTensor h * E * (quatToTensor h).transpose)
    (E0 := quatToTensor h * E0 * (quatToTensor h).transpose) (vecdToSymm_isDev _) (turnX h x)
    (symmToVecd_vecdToSymm _) (by rw [P.turn_eF hh]; rfl) rfl
  rw [k1, k2, turnE_symmToVecd]
  · congr 1
    rw [P.turn_slipGrad S hh hv, sym_conj, dev_conj r1 r2, P.turn_cMatx hh x hx]
    show (1 / P.aV) • ((1 / P.dt) • _) + _ + _ = _
    simp only [Matrix.transpose_mul, Matrix.transpose_transpose, Matrix.mul_smul, Matrix.smul_mul,
      Matrix.mul_add, Matrix.add_mul, Matrix.mul_sub, Matrix.sub_mul, Matrix.mul_assoc]
  · exact isDev_add (isDev_add (isDev_smul _ (isDev_smul _ (isDev_sub (vecdToSymm_isDev _)
      (vecdToSymm_isDev _)))) (isDev_dev_sym _)) (isDev_smul _ (isDev_conjT hr.1 (vecdToSymm_isDev _)))

theorem turn_residR (hh : qn h = 1) (hv : 0 < P.detV) (x : Vec 8)
    (hx : xiF x = 0 ∨ idpTinySqrt < vecNorm (xiF x)) :
    (P.turn h).residR (turnX h x) = (quatToTensor h).mulVec (P.residR x) := by
  have hr := isRot_of_unit hh
  obtain ⟨r1, r2, -⟩ := id hr
  set E := vecdToSymm (P.eF x) with hE
  set E0 := vecdToSymm P.eN with hE0
  set H := quatToTensor h with hH
  have k1 := P.residR_eq S.geom (E := E) (E0 := E0) (vecdToSymm_isDev _) (vecdToSymm_isDev _) x
    (symmToVecd_vecdToSymm _) (symmToVecd_vecdToSymm _)
  have k2 := (P.turn h).residR_eq S.geom
    (E := H * E * H.transpose) (E0 := H * E0 * H.transpose) (isDev_conj r2 (vecdToSymm_isDev _))
    (isDev_conj r2 (vecdToSymm_isDev _)) (turnX h x)
    (by rw [P.turn_eF hh]; rfl) rfl
  have e1 : (1 / P.dt) • (H * E * H.transpose - H * E0 * H.transpose)
      = H * ((1 / P.dt) • (E - E0)) * H.transpose := by
    simp only [Matrix.mul_smul, Matrix.smul_mul, Matrix.mul_sub, Matrix.sub_mul]
  have e2 : ∀ A B : T3, (H * A * H.transpose) * (H * B * H.transpose) = H * (A * B) * H.transpose := by
    intro A B
    calc _ = H * A * (H.transpose * H) * B * H.transpose := by simp only [Matrix.mul_assoc]
      _ = _ := by rw [r2, Matrix.mul_one]; simp only [Matrix.mul_assoc]
  have e3 : ∀ A B : T3, H * A * H.transpose - H * B * H.transpose = H * (A - B) * H.transpose := by
    intro A B; rw [Matrix.mul_sub, Matrix.sub_mul]
  have ht : (P.turn h).dt = P.dt := rfl
  have ha : (P.turn h).aV = P.aV := rfl
  have hw : (P.turn h).wSm = P.wSm := rfl
  rw [k1, k2, ht, ha, hw, e1, e2, e2, e3, P.turn_slipGrad S hh hv, axial_conj hr, axial_conj hr,
    P.turn_cMatx hh x hx, turn_xiF, Matrix.transpose_mul, Matrix.transpose_transpose,
    ← Matrix.mulVec_mulVec, Matrix.mulVec_sub, Matrix.mulVec_smul, Matrix.mulVec_add,
    Matrix.mulVec_sub, Matrix.mulVec_smul]

/-- the equations in turned lattice axes -/
theorem turn_resid (hh : qn h = 1) (hcn : qn P.cN = 1) (hv : 0 < P.detV) (x : Vec 8)
    (hx : xiF x = 0 ∨ idpTinySqrt < vecNorm (xiF x)) :
    (P.turn h).resid (turnX h x) = turnX h (P.resid x) := by
  have e1 : (fun i => P.resid x (iE i)) = P.epsdotScaleInv • P.residE x := by
    funext i; simp [resid]
  have e2 : (fun i => P.resid x (iR i)) = P.rotincrScaleInv • P.residR x := by
    funext i; simp [resid]
  have e3 : ∀ (k : ℝ) v, turnE h (k • v) = k • turnE h v := fun k v => by
    rw [turnE_eq hh, turnE_eq hh, Matrix.mulVec_smul]
  have e4 : turnX h (P.resid x) = block8 (P.epsdotScaleInv • (P.turn h).residE (turnX h x))
      (P.rotincrScaleInv • (P.turn h).residR (turnX h x)) := by
    rw [P.turn_residE S hh hcn hv x hx, P.turn_residR S hh hv x hx, ← e3, ← Matrix.mulVec_smul,
      ← e1, ← e2]
    rfl
  rw [e4]
  rfl

theorem turn_stress (hh : qn h = 1) (hcn : qn P.cN = 1) (hv : 0 < P.detV) (x : Vec 8)
    (hx : xiF x = 0 ∨ idpTinySqrt < vecNorm (xiF x)) :
    Step.stressOf (P.turn h) ((P.turn h).eF (turnX h x)) ((P.turn h).cQuat (turnX h x))
      = Step.stressOf P (P.eF x) (P.cQuat x) := by
  obtain ⟨r1, r2, -⟩ := isRot_of_unit hh
  rw [stressOf_eq (P.turn h) hv _ _ ((P.turn h).qn_cQuat (P.turn_cN hh hcn) _),
    stressOf_eq P hv _ _ (P.qn_cQuat hcn x)]
  have e := P.turn_cMatx hh x hx
  unfold cMatx at e
  rw [e, P.turn_eF hh]
  congr 1
  show _ * latticeStress P.el P.detV P.pEos P.eVref (elasticStrain P.detV _) * _ = _
  rw [elasticStrain_turn hh, S.elast _ (elasticStrain_symm _ _)]
  set H := quatToTensor h
  set C := quatToTensor (P.cQuat x)
  set L := latticeStress P.el P.detV P.pEos P.eVref (elasticStrain P.detV (P.eF x))
  rw [Matrix.transpose_mul, Matrix.transpose_transpose]
  calc C * H.transpose * (H * L * H.transpose) * (H * C.transpose)
      = C * (H.transpose * H) * L * (H.transpose * H) * C.transpose := by
        simp only [Matrix.mul_assoc]
    _ = _ := by rw [r2, Matrix.mul_one, Matrix.mul_one]

theorem turn_shrateEff (hh : qn h = 1) (hv : 0 < P.detV) (x : Vec 8) :
    (P.turn h).shrateEff (turnX h x) = P.shrateEff x := by
  unfold shrateEff vecsssumabs
  rw [← Equiv.sum_comp S.π]
  refine Finset.sum_congr rfl fun i _ => ?_
  rw [P.turn_gdot S hh hv]
  rcases S.sgn i with h | h <;> rw [h] <;> simp

theorem turn_disRate (hh : qn h = 1) (hv : 0 < P.detV) (x : Vec 8) :
    (P.turn h).disRate (turnX h x) = P.disRate x := by
  unfold disRate vecsyadotb
  have : (P.turn h).detVRi = P.detVRi := rfl
  rw [← Equiv.sum_comp S.π, this]
  congr 1
  refine Finset.sum_congr rfl fun i _ => ?_
  rw [P.turn_gdot S hh hv, P.turn_taua S hh hv]
  rcases S.sgn i with h | h <;> rw [h] <;> ring

end Updst

/-! ### Permutations of the slip systems -/

/-- a list of different systems mapped into itself by an orthogonal operation is permuted by it -/
theorem exists_perm {m s : Fin n → Vec 3} {H : T3} (h2 : H.transpose * H = 1)
    (hd : ∀ i j, i ≠ j → ¬ SameSystem (m i) (s i) (m j) (s j)) {f : Fin n → Fin n}
    (hf : ∀ i, SameSystem (H.mulVec (m i)) (H.mulVec (s i)) (m (f i)) (s (f i))) :
    ∃ (π : Equiv.Perm (Fin n)) (ε : Fin n → ℝ), (∀ i, π i = f i) ∧ (∀ i, ε i = 1 ∨ ε i = -1) ∧
      ∀ i, H * dyad (s i) (m i) * H.transpose = ε i • dyad (s (π i)) (m (π i)) := by
  have hinj : Function.Injective f := by
    intro i j hij
    by_contra hne
    have h1 : SameSystem (H.mulVec (m i)) (H.mulVec (s i)) (H.mulVec (m j)) (H.mulVec (s j)) := by
      have hj := hf j
      rw [← hij] at hj
      refine sameSystem_trans (hf i) ?_
      rcases hj with h | h
      · exact Or.inl h.symm
      · exact Or.inr (by rw [h, neg_neg])
    have h3 := sameSystem_map H.transpose h1
    simp only [Matrix.mulVec_mulVec, h2, Matrix.one_mulVec] at h3
    exact hd i j hne h3
  have hb : Function.Bijective f := Finite.injective_iff_bijective.1 hinj
  have key : ∀ i, ∃ e : ℝ, (e = 1 ∨ e = -1) ∧
      H * dyad (s i) (m i) * H.transpose = e • dyad (s (f i)) (m (f i)) := by
    intro i
    have h := hf i
    unfold SameSystem at h
    rw [dyad_mulVec] at h
    rcases h with h | h
    · exact ⟨1, Or.inl rfl, by rw [h, one_smul]⟩
    · exact ⟨-1, Or.inr rfl, by rw [h, neg_one_smul]⟩
  choose ε he using key
  exact ⟨Equiv.ofBijective f hb, ε, fun i => rfl, fun i => (he i).1, fun i => (he i).2⟩

/-! ### Symmetry of the elastic laws -/

/-- the stress of the reference law follows the lattice axes -/
def ElastSym (el : Elast) (H : T3) : Prop :=
  ∀ E : T3, refStress el (H * E * H.transpose) = H * refStress el E * H.transpose

theorem latticeStress_turn {el : Elast} {H : T3} (h1 : H * H.transpose = 1)
    (h2 : H.transpose * H = 1) (hs : ElastSym el H)
    (hg : el.gVecd2 = 0 ∨ H * Matrix.diagonal ![-1, -1, 2] * H.transpose
      = Matrix.diagonal ![-1, -1, 2]) (v p eV : ℝ) (E : T3) :
    latticeStress el v p eV (H * E * H.transpose)
      = H * latticeStress el v p eV E * H.transpose := by
  unfold latticeStress
  rw [hs, dev_conj h1 h2, trace_conj h2, trace_conj h2]
  simp only [Matrix.mul_smul, Matrix.smul_mul, Matrix.mul_add, Matrix.add_mul, Matrix.mul_sub,
    Matrix.sub_mul, Matrix.mul_one, h1]
  rcases hg with hg | hg
  · simp [hg]
  · rw [hg]

theorem cubicOp_conj (σ : Equiv.Perm (Fin 3)) (ε : Fin 3 → ℤˣ) (E : T3) (i j : Fin 3) :
    (cubicOp σ ε * E * (cubicOp σ ε).transpose) i j
      = ((ε i : ℤ) : ℝ) * ((ε j : ℤ) : ℝ) * E (σ i) (σ j) := by
  simp [Matrix.mul_apply, cubicOp, Matrix.transpose_apply]
  ring

theorem cubicStress_apply (c11 c12 c44 : ℝ) (E : T3) (i j : Fin 3) :
    cubicStress c11 c12 c44 E i j
      = if i = j then (c11 - c12) * E i i + c12 * (∑ k, E k k) else 2 * c44 * E i j := by
  fin_cases i <;> fin_cases j <;> simp [cubicStress, Fin.sum_univ_three] <;> ring

theorem cubic_elastSym (c11 c12 c44 : ℝ) (σ : Equiv.Perm (Fin 3)) (ε : Fin 3 → ℤˣ) :
    ElastSym (.cubic c11 c12 c44) (cubicOp σ ε) := by
  have sq : ∀ i, ((ε i : ℤ) : ℝ) * ((ε i : ℤ) : ℝ) = 1 := by
    intro i
    rcases Int.units_eq_one_or (ε i) with h | h <;> simp [h]
  intro E
  ext i j
  show cubicStress c11 c12 c44 _ i j = (cubicOp σ ε * cubicStress c11 c12 c44 E * _) i j
  rw [cubicOp_conj, cubicStress_apply, cubicStress_apply]
  simp only [cubicOp_conj, sq, one_mul]
  have ht : ∑ k, E (σ k) (σ k) = ∑ k, E k k := Equiv.sum_comp σ fun k => E k k
  rw [ht]
  by_cases h : i = j
  · subst h; simp [sq]
  · rw [if_neg h, if_neg (fun h' => h (σ.injective h'))]; ring

theorem ElastSym.mul {el : Elast} {H K : T3} (h1 : ElastSym el H) (h2 : ElastSym el K) :
    ElastSym el (H * K) := by
  intro E
  have := h1 (K * E * K.transpose)
  rw [h2] at this
  rw [Matrix.transpose_mul]
  have e : ∀ A : T3, H * K * A * (K.transpose * H.transpose)
      = H * (K * A * K.transpose) * H.transpose := fun A => by simp only [Matrix.mul_assoc]
  rw [e, e]; exact this

theorem hexRot_elastSym (c11 c12 c13 c33 c44 g : ℝ) : ElastSym (.hexag c11 c12 c13 c33 c44 g) hexRot := by
  intro E
  have := s3_sq
  ext i j
  fin_cases i <;> fin_cases j <;>
    simp [refStress, hexagStress, hexRot, Matrix.mul_apply, Matrix.vecMul, dotProduct, Fin.sum_univ_three] <;> sqr_ring

theorem hexFlip_elastSym (c11 c12 c13 c33 c44 g : ℝ) :
    ElastSym (.hexag c11 c12 c13 c33 c44 g) hexFlip := by
  intro E
  ext i j
  fin_cases i <;> fin_cases j <;>
    simp [refStress, hexagStress, hexFlip, Matrix.mul_apply, Matrix.vecMul, dotProduct, Fin.sum_univ_three] <;> try ring

theorem hex_elastSym (c11 c12 c13 c33 c44 g : ℝ) {H : T3} (hH : HexOp H) :
    ElastSym (.hexag c11 c12 c13 c33 c44 g) H := by
  induction hH with
  | one => intro E; simp
  | rot _ ih => exact ElastSym.mul (hexRot_elastSym c11 c12 c13 c33 c44 g) ih
  | flip _ ih => exact ElastSym.mul (hexFlip_elastSym c11 c12 c13 c33 c44 g) ih

theorem hex_diag {H : T3} (hH : HexOp H) :
    H * Matrix.diagonal ![-1, -1, 2] * H.transpose = Matrix.diagonal ![-1, -1, 2] := by
  induction hH with
  | one => simp
  | @rot R _ ih =>
    have e : hexRot * R * Matrix.diagonal ![-1, -1, 2] * (hexRot * R).transpose
        = hexRot * (R * Matrix.diagonal ![-1, -1, 2] * R.transpose) * hexRot.transpose := by
      rw [Matrix.transpose_mul]; simp only [Matrix.mul_assoc]
    rw [e, ih]
    ext i j
    fin_cases i <;> fin_cases j <;>
      simp [hexRot, Matrix.mul_apply, Matrix.vecMul, dotProduct, Fin.sum_univ_three, Matrix.diagonal_apply] <;> sqr_ring
  | @flip R _ ih =>
    have e : hexFlip * R * Matrix.diagonal ![-1, -1, 2] * (hexFlip * R).transpose
        = hexFlip * (R * Matrix.diagonal ![-1, -1, 2] * R.transpose) * hexFlip.transpose := by
      rw [Matrix.transpose_mul]; simp only [Matrix.mul_assoc]
    rw [e, ih]
    ext i j
    fin_cases i <;> fin_cases j <;>
      simp [hexFlip, Matrix.mul_apply, Matrix.vecMul, dotProduct, Fin.sum_univ_three, Matrix.diagonal_apply]

end Ecm
