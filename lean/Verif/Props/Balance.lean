/-
  Properties of the nonlinear system solved in each material update: C11, C13 (balance equations),
  C34, C59.
-/
import Verif.Lemmas.Balance
import Verif.Props.Voce

namespace Ecm.Props
open Spec

/-! ## C11 -/

/-- C11 the Jacobian returned with the residual is its derivative, scale factors included, for every
    problem with a unit orientation quaternion, at every point where the slip rates have the reported
    derivative and the rotation increment is not in the series branch (|ξ| < 1e-9). -/
theorem C11_jacobian {n : ℕ} (P : Updst n) (x : Vec 8) (hcn : dot P.cN P.cN = 1)
    (hg : ∀ s, HasDerivAt (fun τ => (P.gd s τ).gdot) (P.gd s (P.taua x s)).dtau (P.taua x s))
    (hξ : 1 / 10 ^ 9 ≤ len (Updst.xiF x)) :
    HasJacobian P.resid (P.jac x) x := by
  rw [dot_self_quat] at hcn
  have hx : VFD (fun y : Vec 8 => y) x (fun h => h) := fun k => FD.coord k x
  have hd : VFD (fun _ : Vec 8 => P.dSm) x (fun _ => 0) := fun k => FD.const _
  have h1 := P.residE_FD hcn hx hd hg hξ rfl
  have h2 := P.residR_FD hcn hx hg hξ
  apply hasJacobian_of_FD
  refine forall_fin8 (fun i => ?_) fun i => ?_
  · refine (((h1 i).const_mul P.epsdotScaleInv).congr_fun fun y => ?_).congr fun h => ?_
    · show block8 _ _ (iE i) = _
      rw [block8_iE]
    · beta_reduce
      rw [show vecsVMTa (P.qr5x5 x) 0 i = 0 by simp [vecsVMTa], sub_zero, Finset.mul_sum]
      refine Finset.sum_congr rfl fun k _ => ?_
      have hi : (iE i).val < 5 := i.isLt
      simp only [Updst.jac, if_pos hi, xScale]
      ring
  · refine (((h2 i).const_mul P.rotincrScaleInv).congr_fun fun y => ?_).congr fun h => ?_
    · show block8 _ _ (iR i) = _
      rw [block8_iR]
    · beta_reduce
      rw [Finset.mul_sum]
      refine Finset.sum_congr rfl fun k _ => ?_
      have hi : ¬ (iR i).val < 5 := by simp [iR]
      simp only [Updst.jac, if_neg hi, xScale]
      ring

/-- C11 for the power-law kinetics the hypothesis on the rates holds unless some resolved shear
    stress sits exactly on one of the two thresholds. -/
theorem C11_voce (k : Voce) (hm : 0 < k.xm) (hw : 0 < k.gamW) (g tau : ℝ) (hg : 0 < g)
    (h1 : |tau| / g ≠ (1 / 10 ^ 60 : ℝ) ^ k.xm) (h2 : |tau| / g ≠ (10 ^ 60 : ℝ) ^ k.xm) :
    HasDerivAt (fun τ => (k.evalGdot g τ).gdot) (k.evalGdot g tau).dtau tau := by
  rcases lt_or_gt_of_ne h1 with h | h
  · exact (C25_inactive k hm g tau hg (Or.inl h)).1
  · rcases lt_or_gt_of_ne h2 with h' | h'
    · exact (C25_active k hm hw g tau hg h h').1
    · exact (C25_inactive k hm g tau hg (Or.inr h')).1

/-- an FCC crystal with a linear rate law in general position, used in examples -/
noncomputable def probEx : Updst 12 where
  geom := slipPQ fccM fccS
  el := .cubic 3 1 1
  gd := fun _ τ => { gdot := τ, dtau := 1, dg := 0 }
  adotsRef := 1
  hdnScale := 1
  dt := 1 / 2
  detV := 8
  eVref := 1
  pEos := 2
  tK := 300
  eN := ![1, 0, 2, 0, 0]
  cN := ![3 / 5, 0, 4 / 5, 0]
  dSm := ![1, 2, 0, 0, 1]
  wSm := ![0, 1, 2]

theorem probEx_unit : dot probEx.cN probEx.cN = 1 := by
  simp [probEx, dot, Fin.sum_univ_four]; norm_num

example : HasJacobian probEx.resid (probEx.jac fun _ => 1) fun _ => 1 := by
  refine C11_jacobian probEx (fun _ => 1) probEx_unit (fun s => ?_) ?_
  · exact hasDerivAt_id' _
  · have e : Updst.xiF (fun _ => 1) = fun _ : Fin 3 => 1 / 100 := by
      funext i; simp [Updst.xiF, vecsVxa, rScale]
    rw [e]
    have : (1 / 10 ^ 9 : ℝ) = Real.sqrt ((1 / 10 ^ 9) ^ 2) := (Real.sqrt_sq (by norm_num)).symm
    rw [this]
    apply Real.sqrt_le_sqrt
    simp [dot]; norm_num

/-! ## C13 -/

/-- C13 the residual vanishes exactly when the balance equations of one backward Euler step hold
    between tensors: `D` is the imposed deviatoric deformation rate, `E0` and `E` the elastic strain
    before the step and at the trial point, and the slip rates are those of the kinetics. -/
theorem C13_balance {n : ℕ} (P : Updst n) (m s : Fin n → Vec 3) (hgeom : P.geom = slipPQ m s)
    (hcn : dot P.cN P.cN = 1) (hdt : 0 < P.dt) (hv : 0 < P.detV) (ha : 0 < P.adotsRef)
    (a : ℝ) (ha0 : 0 < a) (ha3 : a ^ 3 = P.detV) (x : Vec 8) (D E E0 : T3)
    (hD : IsDev D) (hE : IsDev E) (hE0 : IsDev E0)
    (dD : symmToVecd D = P.dSm) (dE : symmToVecd E = P.eF x) (dE0 : symmToVecd E0 = P.eN) :
    P.resid x = 0 ↔ Balance a P.dt D P.wSm (P.cMatx x) E ((1 / P.dt) • (E - E0))
      (slipGrad (fun i => (P.gd i (P.taua x i)).gdot) s m) (Updst.xiF x) := by
  have haV : P.aV = a := by
    have h1 := P.aV_cube hv
    have h2 := P.aV_pos hv
    exact (pow_left_inj₀ h2.le ha0.le (by norm_num : (3 : ℕ) ≠ 0)).1 (h1.trans ha3.symm)
  rw [dot_self_quat] at hcn
  have e1 := P.residE_iff hgeom hcn hD hE hE0 x dD dE dE0
  have e2 := P.residR_iff hgeom hE hE0 x dE dE0
  rw [haV] at e1 e2
  rw [P.resid_eq_zero hdt ha]
  exact ⟨fun h => ⟨e1.1 h.1, e2.1 h.2⟩, fun h => ⟨e1.2 h.strain, e2.2 h.spin⟩⟩

/-- C13 the resolved shear stress entering the rates is direction . T . normal of the elastic stress
    `T` at the trial point. -/
theorem C13_resolved {n : ℕ} (P : Updst n) (m s : Fin n → Vec 3) (hgeom : P.geom = slipPQ m s)
    (x : Vec 8) (T : T3) (hT : T.IsSymm) (ho : ∀ i, dot (m i) (s i) = 0)
    (hT' : ∀ i : Fin 5, P.elastNEtoT (P.eF x) i.castSucc = symmToVecd T i) (i : Fin n) :
    P.taua x i = dot (s i) (T.mulVec (m i)) := by
  rw [← C18_resolved_shear m s T hT i (ho i), ← hgeom]
  unfold Updst.taua
  congr 1
  exact funext hT'

/-- C13 the trial orientation is the old one followed by the rotation with the increment as rotation
    vector. -/
theorem C13_orientation {n : ℕ} (P : Updst n) (x : Vec 8) :
    P.cMatx x = quatToTensor P.cN * quatToTensor (emapToQuat (Updst.xiF x)) := P.cMatx_eq x

example : probEx.geom = slipPQ fccM fccS ∧ dot probEx.cN probEx.cN = 1 ∧ 0 < probEx.dt ∧
    0 < probEx.detV ∧ 0 < probEx.adotsRef ∧ (2 : ℝ) ^ 3 = probEx.detV ∧
    ∃ D E E0 : T3, IsDev D ∧ IsDev E ∧ IsDev E0 ∧ symmToVecd D = probEx.dSm ∧
      symmToVecd E = probEx.eF (fun _ => 1) ∧ symmToVecd E0 = probEx.eN ∧ E ≠ E0 := by
  refine ⟨rfl, probEx_unit, ?_, ?_, ?_, ?_, vecdToSymm _, vecdToSymm _, vecdToSymm _,
    vecdToSymm_isDev _, vecdToSymm_isDev _, vecdToSymm_isDev _, symmToVecd_vecdToSymm _,
    symmToVecd_vecdToSymm _, symmToVecd_vecdToSymm _, ?_⟩
  · norm_num [probEx]
  · norm_num [probEx]
  · norm_num [probEx]
  · norm_num [probEx]
  · intro h
    have h2 := congrArg symmToVecd h
    rw [symmToVecd_vecdToSymm, symmToVecd_vecdToSymm] at h2
    have := congrFun h2 0
    simp [Updst.eF, vecsVapb, vecsVxa, probEx, eScale] at this

/-! ## C59 -/

/-- C59 the unchanged state (no elastic increment, no rotation increment) solves the equations
    exactly when the imposed deviatoric rate and spin are those of the velocity gradient of slip at
    the current stress, taken in the current lattice: symmetric part and axial vector in the
    documented convention. -/
theorem C59_stationary {n : ℕ} (P : Updst n) (m s : Fin n → Vec 3) (hgeom : P.geom = slipPQ m s)
    (hcn : dot P.cN P.cN = 1) (hdt : 0 < P.dt) (ha : 0 < P.adotsRef)
    (γ : Fin n → ℝ) (hγ : ∀ i, γ i = (P.gd i (P.taua 0 i)).gdot)
    (L : T3) (hL : L = ∑ i, γ i • dyad ((quatToTensor P.cN).mulVec (s i))
      ((quatToTensor P.cN).mulVec (m i))) :
    (P.resid 0 = 0 ↔ P.dSm = symmToVecd (dev (sym L)) ∧ P.wSm = axial L) ∧
    P.eF 0 = P.eN ∧ P.cQuat 0 = P.cN := by
  rw [dot_self_quat] at hcn
  have hr := isRot_of_unit hcn
  refine ⟨?_, P.eF_zero, P.cQuat_zero⟩
  set R := quatToTensor P.cN with hRdef
  set Lp := slipGrad γ s m with hLp
  have hLR : L = R * Lp * R.transpose := by
    rw [hL, hLp, slipGrad, Matrix.mul_sum, Matrix.sum_mul]
    refine Finset.sum_congr rfl fun i _ => ?_
    rw [Matrix.mul_smul, Matrix.smul_mul, dyad_conj]
  have hg : P.gdot 0 = γ := funext fun i => (hγ i).symm
  have hC : P.cMatx 0 = R := by rw [hRdef, Updst.cMatx, P.cQuat_zero]
  have e0 : symmToVecd (vecdToSymm P.eN) = P.eF 0 := by rw [symmToVecd_vecdToSymm, P.eF_zero]
  have e0' : symmToVecd (vecdToSymm P.eN) = P.eN := symmToVecd_vecdToSymm _
  have hEd := vecdToSymm_isDev P.eN
  have dD : symmToVecd (vecdToSymm P.dSm) = P.dSm := symmToVecd_vecdToSymm _
  have h1 := P.residE_iff hgeom hcn (vecdToSymm_isDev P.dSm) hEd hEd 0 dD e0 e0'
  have h2 := P.residR_iff hgeom hEd hEd 0 e0 e0'
  rw [hg, hC, ← hLp] at h1 h2
  rw [P.resid_eq_zero hdt ha, h1, h2, Updst.xiF_zero]
  have hsym : R * dev (sym Lp) * R.transpose = dev (sym L) := by
    have ht : (sym L).trace = (sym Lp).trace := by
      have : sym L = R * sym Lp * R.transpose := by
        rw [hLR]; unfold sym
        rw [Matrix.mul_smul, Matrix.smul_mul, Matrix.mul_add, Matrix.add_mul, Matrix.transpose_mul,
          Matrix.transpose_mul, Matrix.transpose_transpose, Matrix.mul_assoc R Lp.transpose]
      rw [this, trace_conj hr.2.1]
    have hs : sym L = R * sym Lp * R.transpose := by
      rw [hLR]; unfold sym
      rw [Matrix.mul_smul, Matrix.smul_mul, Matrix.mul_add, Matrix.add_mul, Matrix.transpose_mul,
        Matrix.transpose_mul, Matrix.transpose_transpose, Matrix.mul_assoc R Lp.transpose]
    unfold dev
    rw [ht, Matrix.mul_sub, Matrix.sub_mul, Matrix.mul_smul, Matrix.smul_mul, Matrix.mul_one, hr.1,
      hs]
  have hax : axial L = R.mulVec (axial Lp) := by rw [hLR, axial_conj hr]
  simp only [sub_self, smul_zero, zero_add, Matrix.zero_mul, Matrix.mul_zero]
  have ax0 : axial (0 : T3) = 0 := by ext i; fin_cases i <;> simp [axial]
  rw [ax0, smul_zero, add_zero]
  refine and_congr ?_ ?_
  · constructor
    · intro h
      rw [← dD, ← hsym, h]
      congr 1
      rw [Matrix.mul_assoc, Matrix.mul_assoc, hr.1, Matrix.mul_one, ← Matrix.mul_assoc, hr.1,
        Matrix.one_mul]
    · intro h
      rw [h, vecdToSymm_symmToVecd _ (isDev_dev_sym L), ← hsym]
      rw [← Matrix.mul_assoc, ← Matrix.mul_assoc, hr.2.1, Matrix.one_mul, Matrix.mul_assoc, hr.2.1,
        Matrix.mul_one]
  · constructor
    · intro h
      have h3 : R.transpose.mulVec P.wSm = axial Lp := by
        have : P.dt • (R.transpose.mulVec P.wSm - axial Lp) = 0 := h.symm
        exact sub_eq_zero.1 ((smul_eq_zero.1 this).resolve_left hdt.ne')
      rw [hax, ← h3, Matrix.mulVec_mulVec, hr.1, Matrix.one_mulVec]
    · intro h
      rw [h, hax, Matrix.mulVec_mulVec, hr.2.1, Matrix.one_mulVec, sub_self, smul_zero]

/-- C59 the case of one active system: the velocity gradient `γ s⊗m` of that system in the current
    lattice leaves elastic strain and orientation unchanged. -/
theorem C59_single_slip {n : ℕ} (P : Updst n) (m s : Fin n → Vec 3) (hgeom : P.geom = slipPQ m s)
    (hcn : dot P.cN P.cN = 1) (hdt : 0 < P.dt) (ha : 0 < P.adotsRef) (k : Fin n)
    (hk : ∀ i, i ≠ k → (P.gd i (P.taua 0 i)).gdot = 0)
    (L : T3) (hL : L = (P.gd k (P.taua 0 k)).gdot • dyad ((quatToTensor P.cN).mulVec (s k))
      ((quatToTensor P.cN).mulVec (m k)))
    (hd : P.dSm = symmToVecd (dev (sym L))) (hw : P.wSm = axial L) : P.resid 0 = 0 := by
  refine (C59_stationary P m s hgeom hcn hdt ha (fun i => (P.gd i (P.taua 0 i)).gdot) (fun _ => rfl)
    L ?_).1.2 ⟨hd, hw⟩
  rw [hL, Finset.sum_eq_single k]
  · intro i _ hi; rw [hk i hi, zero_smul]
  · intro h; exact absurd (Finset.mem_univ k) h

/-- a crystal with all systems but the third locked -/
noncomputable def slipEx : Updst 12 :=
  let L : T3 := (probEx.taua 0 3) • dyad ((quatToTensor probEx.cN).mulVec (fccS 3))
    ((quatToTensor probEx.cN).mulVec (fccM 3))
  { probEx with
    gd := fun i τ => if i = 3 then { gdot := τ, dtau := 1, dg := 0 } else { gdot := 0, dtau := 0, dg := 0 }
    dSm := symmToVecd (dev (sym L))
    wSm := axial L }

example : slipEx.resid 0 = 0 := by
  refine C59_single_slip slipEx fccM fccS rfl probEx_unit ?_ ?_ 3 ?_ _ rfl ?_ ?_
  · norm_num [slipEx, probEx]
  · norm_num [slipEx, probEx]
  · intro i hi; simp [slipEx, hi]
  · simp only [slipEx, if_true]; rfl
  · simp only [slipEx, if_true]; rfl

/-! ## C34 -/

/-- C34 unstressed cubic crystal, no deviatoric rate, no rate at zero stress: a trial point without
    elastic increment has no slip and no deviatoric stress, and it solves the equations exactly when
    the rotation increment is dt times the spin in the (old) lattice frame. -/
theorem C34_no_load {n : ℕ} (P : Updst n) (c11 c12 c44 : ℝ) (hel : P.el = .cubic c11 c12 c44)
    (hcn : dot P.cN P.cN = 1) (hdt : 0 < P.dt) (ha : 0 < P.adotsRef)
    (he : P.eN = 0) (hd : P.dSm = 0) (hg : ∀ i, (P.gd i 0).gdot = 0)
    (x : Vec 8) (hx : ∀ i, x (iE i) = 0)
    (hξ : 1 / 10 ^ 90 < len (Updst.xiF x) ∨ Updst.xiF x = 0) :
    (∀ i, P.gdot x i = 0) ∧ P.eF x = 0 ∧
    (∀ i : Fin 5, P.elastNEtoC (P.eF x) i.castSucc = 0) ∧
    (P.resid x = 0 ↔ Updst.xiF x = P.dt • (quatToTensor P.cN).transpose.mulVec P.wSm) := by
  rw [dot_self_quat] at hcn
  have hr := isRot_of_unit hcn
  have eF : P.eF x = 0 := by
    funext i; simp [Updst.eF, vecsVapb, vecsVxa, hx, he]
  have ed : P.edot x = 0 := by
    funext i; simp [Updst.edot, vecsVxa, vecsVsa, hx]
  have hT : ∀ i : Fin 5, P.elastNEtoT (P.eF x) i.castSucc = 0 := fun i => by
    rw [P.elastNEtoT_castSucc, eF]
    simp only [Updst.tConst, hel]
    fin_cases i <;> simp [Elast.eval]
  have ht : P.taua x = 0 := by
    funext i
    simp only [Updst.taua, vecsVaTM, hT]
    simp
  have hgd : P.gdot x = 0 := by
    funext i
    simp only [Updst.gdot, ht]
    exact hg i
  refine ⟨fun i => congrFun hgd i, eF, fun i => ?_, ?_⟩
  · show P.detVRi * P.elastNEtoT (P.eF x) i.castSucc = 0
    rw [hT, mul_zero]
  · have hE : P.residE x = 0 := by
      funext i
      simp [Updst.residE, ed, hgd, hd, vecsVMa, vecsVMTa]
    have hRes : P.residR x = Updst.xiF x - P.dt • (P.cMatx x).transpose.mulVec P.wSm := by
      funext i
      simp [Updst.residR, ed, hgd, vecsVMa, vecsVMTa_eq]
    rw [P.resid_eq_zero hdt ha]
    set Q := quatToTensor (emapToQuat (Updst.xiF x)) with hQ
    have hQr : IsRot Q := isRot_of_unit (qn_emapToQuat _)
    have hfix : Q.mulVec (Updst.xiF x) = Updst.xiF x := emap_mulVec_self hξ
    have hC : (P.cMatx x).transpose = Q.transpose * (quatToTensor P.cN).transpose := by
      rw [P.cMatx_eq, Matrix.transpose_mul]
    rw [hRes, sub_eq_zero, hC, ← Matrix.mulVec_mulVec, ← Matrix.mulVec_smul]
    set v := P.dt • (quatToTensor P.cN).transpose.mulVec P.wSm
    constructor
    · rintro ⟨-, h⟩
      rw [← hfix, h, Matrix.mulVec_mulVec, hQr.1, Matrix.one_mulVec]
    · intro h
      refine ⟨hE, ?_⟩
      rw [← h]
      conv_lhs => rw [← Matrix.one_mulVec (Updst.xiF x), ← hQr.2.1, ← Matrix.mulVec_mulVec, hfix]

/-- C34 existence: such a solution exists for every spin with dt |w| > 1e-90 (and for zero spin), and
    the new orientation is the old one rotated about the spin vector by the angle dt |w|, in the
    sample frame. -/
theorem C34_rigid_rotation {n : ℕ} (P : Updst n) (c11 c12 c44 : ℝ) (hel : P.el = .cubic c11 c12 c44)
    (hcn : dot P.cN P.cN = 1) (hdt : 0 < P.dt) (ha : 0 < P.adotsRef)
    (he : P.eN = 0) (hd : P.dSm = 0) (hg : ∀ i, (P.gd i 0).gdot = 0)
    (hw : 1 / 10 ^ 90 < P.dt * len P.wSm ∨ P.wSm = 0) :
    ∃ x, P.resid x = 0 ∧ P.eF x = 0 ∧ (∀ i, P.gdot x i = 0) ∧
      (P.wSm = 0 → P.cMatx x = quatToTensor P.cN) ∧
      (P.wSm ≠ 0 → P.cMatx x
        = rodrigues (P.dt * len P.wSm) ((1 / len P.wSm) • P.wSm) * quatToTensor P.cN) := by
  set v := P.dt • (quatToTensor P.cN).transpose.mulVec P.wSm with hv
  have hcn' := hcn
  rw [dot_self_quat] at hcn'
  have hr := isRot_of_unit hcn'
  let x : Vec 8 := block8 0 (fun i => v i / rScale)
  have hs : rScale ≠ 0 := by unfold rScale; norm_num
  have hxi : Updst.xiF x = v := by
    funext i
    simp only [Updst.xiF, vecsVxa, x, block8_iR]
    field_simp
  have hlen : len v = P.dt * len P.wSm := by
    rw [hv, len_smul _ hdt.le, len_mulVec_rot (by rw [Matrix.transpose_transpose]; exact hr.1)]
  have hξ : 1 / 10 ^ 90 < len (Updst.xiF x) ∨ Updst.xiF x = 0 := by
    rw [hxi]
    rcases hw with h | h
    · left; rw [hlen]; exact h
    · right; rw [hv, h]; simp
  obtain ⟨a1, a2, -, a4⟩ := C34_no_load P c11 c12 c44 hel hcn hdt ha he hd hg x
    (fun i => by simp [x]) hξ
  refine ⟨x, a4.2 hxi, a2, a1, fun h => ?_, fun h => ?_⟩
  · rw [P.cMatx_eq, hxi, hv, h]
    rw [Matrix.mulVec_zero, smul_zero, (C05_tiny 0 (by simp [len, dot])).2.1 rfl, Matrix.mul_one]
  · have hw' := hw.resolve_right h
    have hl : 0 < len P.wSm := by
      have : (0 : ℝ) < P.dt * len P.wSm := lt_trans (by positivity) hw'
      exact (pos_iff_pos_of_mul_pos this).1 hdt
    rw [P.cMatx_eq, hxi, (C05_rodrigues v (by rw [hlen]; exact hw')).1, hlen]
    have e1 : (1 / (P.dt * len P.wSm)) • v
        = (quatToTensor P.cN).transpose.mulVec ((1 / len P.wSm) • P.wSm) := by
      rw [hv, Matrix.mulVec_smul, smul_smul]
      congr 1
      field_simp
    rw [e1]
    have e2 := rodrigues_conj hr (P.dt * len P.wSm)
      ((quatToTensor P.cN).transpose.mulVec ((1 / len P.wSm) • P.wSm))
    rw [Matrix.mulVec_mulVec, hr.1, Matrix.one_mulVec] at e2
    rw [← e2, Matrix.mul_assoc _ _ (quatToTensor P.cN), hr.2.1, Matrix.mul_one]

/-- an unstressed FCC crystal with power-law kinetics under pure spin -/
noncomputable def spinEx : Updst 12 :=
  { probEx with
    gd := fun _ τ => voceExample.evalGdot 1 τ
    eN := 0
    dSm := 0 }

example : ∃ x, spinEx.resid x = 0 ∧ spinEx.cMatx x
    = rodrigues (spinEx.dt * len spinEx.wSm) ((1 / len spinEx.wSm) • spinEx.wSm)
      * quatToTensor spinEx.cN := by
  have hw : spinEx.wSm ≠ 0 := by
    intro h; have := congrFun h 1; simp [spinEx, probEx] at this
  have hl : 1 ≤ len spinEx.wSm := by
    unfold len
    rw [← Real.sqrt_one]
    apply Real.sqrt_le_sqrt
    simp [spinEx, probEx, dot, Fin.sum_univ_three]
  have hdt : spinEx.dt = 1 / 2 := rfl
  obtain ⟨x, h1, -, -, -, h5⟩ := C34_rigid_rotation spinEx 3 1 1 rfl probEx_unit
    (by rw [hdt]; norm_num) one_pos rfl rfl
    (fun i => (C24_sign voceExample (by norm_num [voceExample]) (by norm_num [voceExample]) 1 0
      one_pos).1.2 (by simp [voceExample]))
    (Or.inl (by rw [hdt]; refine lt_of_lt_of_le ?_ (mul_le_mul_of_nonneg_left hl (by norm_num));
                norm_num))
  exact ⟨x, h1, h5 hw⟩

end Ecm.Props
