/- Property theorem C33: frame indifference of the update (src/ecmech/ECMech_evptn.h:405-1246). -/
import Verif.Lemmas.Objectivity
import Verif.Lemmas.Example

namespace Ecm.Props
open Ecm Spec Matrix

variable {n nH : ℕ}

/-- a documented seven-component list with the tensor of its first six entries rotated by `R`; the
    last entry (pressure, volumetric rate) is a scalar -/
def rotSvec (R : T3) (s : Vec 7) : Vec 7 :=
  let B := R * devOfSvecP s * R.transpose
  ![B 0 0, B 1 1, B 2 2, B 1 2, B 0 2, B 0 1, s 6]

/-- inputs seen by a rotated observer -/
def rotInputs (R : T3) (inp : Inputs) : Inputs :=
  { inp with d := rotSvec R inp.d, w := R.mulVec inp.w }

/-- memory seen by a rotated observer: stress rotated, lattice orientation composed with the rotation
    given by the quaternion `a`, everything else unchanged -/
def rotMem (a : Vec 4) (m : Mem nH n) : Mem nH n :=
  { m with
    stress := rotSvec (quatToTensor a) m.stress
    hist := ({ histOf m with q := quatProd a (histOf m).q } : Hist nH n).toArray }

/-- outcome with the memory changed by `f` -/
def mapRes {α : Type} (f : α → α) : Res α → Res α
  | .ok m => .ok (f m)
  | .fail s m => .fail s (f m)
  | .undef w => .undef w

/-! ### helpers -/

theorem devOfSvecP_rot (R : T3) (s : Vec 7) :
    devOfSvecP (rotSvec R s) = R * devOfSvecP s * R.transpose := by
  have h : (R * devOfSvecP s * R.transpose).IsSymm := by
    have h1 : (devOfSvecP s).IsSymm := by
      ext i j; fin_cases i <;> fin_cases j <;> rfl
    unfold Matrix.IsSymm
    rw [Matrix.transpose_mul, Matrix.transpose_mul, Matrix.transpose_transpose, h1.eq,
      Matrix.mul_assoc]
  have h10 := h.apply 0 1
  have h20 := h.apply 0 2
  have h21 := h.apply 1 2
  unfold rotSvec
  generalize R * devOfSvecP s * R.transpose = B at *
  ext i j
  fin_cases i <;> fin_cases j <;> simp [devOfSvecP, h10, h20, h21]

theorem svecToVecd_dev {s : Vec 7} (h : IsDev (devOfSvecP s)) :
    svecToVecd s = symmToVecd (devOfSvecP s) := by
  obtain ⟨h1, h2, h3, h4⟩ := (isDev_iff _).1 h
  simp [devOfSvecP] at h4
  funext i
  fin_cases i <;> simp [svecToVecd, symmToVecd, devOfSvecP]
  have : s 0 = -s 1 - s 2 := by linarith
  rw [this]; sqr_ring

theorem svecToVecd_rot {R : T3} (hR : R.transpose * R = 1) {s : Vec 7} (h : IsDev (devOfSvecP s)) :
    svecToVecd (rotSvec R s) = symmToVecd (R * vecdToSymm (svecToVecd s) * R.transpose) := by
  have h2 : IsDev (devOfSvecP (rotSvec R s)) := by
    rw [devOfSvecP_rot]; exact isDev_conj hR h
  rw [svecToVecd_dev h2, devOfSvecP_rot, svecToVecd_dev h, vecdToSymm_symmToVecd _ h]

theorem inner_rot {R : T3} (hR : R.transpose * R = 1) (s d : Vec 7) :
    vecsInnerSvecDev (rotSvec R s) (rotSvec R d) = vecsInnerSvecDev s d := by
  have e : ∀ a b : Vec 7, vecsInnerSvecDev a b = ddot (devOfSvecP a) (devOfSvecP b) := by
    intro a b
    simp [vecsInnerSvecDev, ddot, devOfSvecP, Fin.sum_univ_three]; ring
  rw [e, e, devOfSvecP_rot, devOfSvecP_rot, ddot_conj hR]

theorem vecNorm4 (q : Vec 4) : vecNorm q = Real.sqrt (qn q) := by
  unfold vecNorm
  congr 1
  simp [Fin.sum_univ_four, qn]; ring

theorem normalize_rot {a : Vec 4} (ha : qn a = 1) (q : Vec 4) :
    vecsVNormalize (quatProd a q) = quatProd a (vecsVNormalize q) := by
  unfold vecsVNormalize
  rw [vecNorm4, vecNorm4, qn_prod, ha, one_mul]
  ext i
  fin_cases i <;> simp [vecsVsa, quatProd] <;> ring

theorem dot4_rot {a : Vec 4} (ha : qn a = 1) (p q : Vec 4) :
    vecsyadotb (quatProd a p) (quatProd a q) = vecsyadotb p q := by
  have : vecsyadotb (quatProd a p) (quatProd a q) = qn a * vecsyadotb p q := by
    simp [vecsyadotb, Fin.sum_univ_four, quatProd, qn]; ring
  rw [this, ha, one_mul]

theorem quatProd_eq_zero {a : Vec 4} (ha : qn a = 1) (q : Vec 4) : quatProd a q = 0 ↔ q = 0 := by
  constructor
  · intro h
    have h1 : quatProd ![a 0, -a 1, -a 2, -a 3] (quatProd a q) = fun i => qn a * q i := by
      ext i
      fin_cases i <;> simp [quatProd, qn] <;> ring
    rw [h, ha] at h1
    funext i
    have := congrFun h1 i
    simp only [one_mul] at this
    rw [← this]
    fin_cases i <;> simp [quatProd]
  · rintro rfl
    ext i
    fin_cases i <;> simp [quatProd]

theorem quatProd_neg (a q : Vec 4) : quatProd a (-q) = -quatProd a q := by
  ext i
  fin_cases i <;> simp [quatProd] <;> ring

theorem histOf_rotMem (a : Vec 4) (m : Mem nH n) :
    Hist.ofArray (rotMem a m).hist = { histOf m with q := quatProd a (histOf m).q } :=
  Hist.ofArray_toArray _

theorem setup_rot (M : Material n nH) (inp : Inputs) (m : Mem nH n) {a : Vec 4} (ha : qn a = 1)
    (hd : IsDev (devOfSvecP inp.d)) :
    Step.setup M (rotInputs (quatToTensor a) inp) (rotMem a m)
      = (Step.setup M inp m).bind fun u => .ok (u.1, u.2.rot a) := by
  have r2 := (isRot_of_unit ha).2.1
  have htK : Step.tK M (rotInputs (quatToTensor a) inp) (rotMem a m) = Step.tK M inp m := rfl
  have hu : Step.eosUpdate M (rotInputs (quatToTensor a) inp) (rotMem a m)
      = Step.eosUpdate M inp m := rfl
  have hq : Step.quatN (rotMem a m) = quatProd a (Step.quatN m) := by
    unfold Step.quatN
    rw [histOf_rotMem]
    exact normalize_rot ha _
  unfold Step.setup
  rw [htK, hu, hq, histOf_rotMem]
  simp only [quatProd_eq_zero ha]
  by_cases h1 : (Hist.ofArray m.hist).q = 0
  · simp [h1, Out.bind]
  simp only [if_neg h1]
  by_cases h2 : M.eos.cvav = 0
  · simp [h2, Out.bind]
  simp only [if_neg h2]
  have hs : svecToVecd (rotInputs (quatToTensor a) inp).d
      = symmToVecd (quatToTensor a * vecdToSymm (svecToVecd inp.d) * (quatToTensor a).transpose) :=
    svecToVecd_rot r2 hd
  rw [hs]
  show (M.kin.updateH (histOf m).h inp.dt (histOf m).gdot).bind _ = _
  cases M.kin.updateH (histOf m).h inp.dt (histOf m).gdot with
  | fail s => rfl
  | undef w => rfl
  | ok u =>
    simp only [Out.bind, Updst.make]
    have e1 : (rotInputs (quatToTensor a) inp).dt = inp.dt := rfl
    have e2 : (rotInputs (quatToTensor a) inp).vr = inp.vr := rfl
    rw [e1, e2]
    by_cases h3 : inp.dt = 0
    · simp [h3]
    simp only [if_neg h3]
    by_cases h4 : inp.vr 1 ≤ 0
    · simp [h4]
    simp only [if_neg h4]
    cases M.kin.getVals (Step.eosUpdate M inp m).press (Step.tK M inp m) u.1 with
    | fail s => rfl
    | undef w => rfl
    | ok v => rfl

theorem svecP_rot {R S : T3} (r1 : R * R.transpose = 1) (r2 : R.transpose * R = 1)
    (hS : S.IsSymm) : svecP (R * S * R.transpose) = rotSvec R (svecP S) := by
  have h10 := hS.apply 0 1
  have h20 := hS.apply 0 2
  have h21 := hS.apply 1 2
  have hd : devOfSvecP (svecP S) = dev S := by
    ext i j
    fin_cases i <;> fin_cases j <;> simp [devOfSvecP, svecP, dev, h10, h20, h21]
  have hdev : R * dev S * R.transpose = dev (R * S * R.transpose) := by
    have ht : (R * S * R.transpose).trace = S.trace := trace_conj r2
    unfold dev
    rw [ht, Matrix.mul_sub, Matrix.sub_mul, Matrix.mul_smul, Matrix.smul_mul, Matrix.mul_one, r1]
  unfold rotSvec
  simp only
  rw [hd, hdev]
  ext i
  fin_cases i <;> simp [svecP]
  exact trace_conj r2

theorem stressOf_rot (P : Updst n) (hv : 0 < P.detV) (e : Vec 5) (q : Vec 4) (hq : qn q = 1)
    {a : Vec 4} (ha : qn a = 1) :
    Step.stressOf (P.rot a) e (quatProd a q) = rotSvec (quatToTensor a) (Step.stressOf P e q) := by
  obtain ⟨r1, r2, -⟩ := isRot_of_unit ha
  have hS : (latticeStress P.el P.detV P.pEos P.eVref (elasticStrain P.detV e)).IsSymm :=
    latticeStress_symm _ _ _ _ _ (elasticStrain_symm _ _)
  rw [stressOf_eq (P.rot a) hv e _ (by rw [qn_prod, ha, hq, one_mul]), stressOf_eq P hv e q hq]
  rw [← svecP_rot r1 r2, quatToTensor_prod, Matrix.transpose_mul]
  · congr 1
    simp only [Matrix.mul_assoc]
    rfl
  · unfold Matrix.IsSymm
    rw [Matrix.transpose_mul, Matrix.transpose_mul, Matrix.transpose_transpose, hS.eq,
      Matrix.mul_assoc]

/-! ## C33 -/

/-- C33 a rotated observer, who sees deformation rate, spin, old stress and lattice orientation
    rotated, gets the same outcome: the same failure or, on success, the same energy, temperature,
    moduli, elastic strain, strengths, slip rates and pressure, and the rotated stress and
    orientation.  For every solver.  (Updates that return no tangent; the deformation rate is given in
    its documented form, with traceless first three entries.) -/
theorem C33_frame (X : Ext) (M : Material n nH) (inp : Inputs) (m : Mem nH n) (a : Vec 4)
    (ha : dot a a = 1) (hd : IsDev (devOfSvecP inp.d)) (ht : m.mtan = none) :
    getResponseSngl X M (rotInputs (quatToTensor a) inp) (rotMem a m)
      = mapRes (rotMem a) (getResponseSngl X M inp m) := by
  rw [dot_self_quat] at ha
  have r2 := (isRot_of_unit ha).2.1
  unfold getResponseSngl
  rw [setup_rot M inp m ha hd]
  cases h1 : Step.setup M inp m with
  | undef w => rfl
  | fail s =>
    show Res.fail s _ = Res.fail s _
    rfl
  | ok u =>
    obtain ⟨hU, P⟩ := u
    obtain ⟨kU, v, sc, a1, a2, a3, a4, a5, a6, a7⟩ := Step.setup_ok h1
    have hcn : qn P.cN = 1 := by rw [a7]; exact qn_quatN a1
    have hv : 0 < P.detV := by rw [a7]; exact a4
    simp only [Out.bind, Step.run]
    have hsol : Step.solve X (rotInputs (quatToTensor a) inp) (P.rot a) = Step.solve X inp P := by
      unfold Step.solve
      rw [P.rot_problem ha hcn]
      rfl
    rw [hsol]
    by_cases h2 : (Step.solve X inp P).converged = false
    · simp only [h2, if_true]; rfl
    simp only [if_neg h2]
    have hm : (rotMem a m).mtan = none := ht
    have hu : Step.eosUpdate M (rotInputs (quatToTensor a) inp) (rotMem a m)
      = Step.eosUpdate M inp m := rfl
    rw [hm, ht, hu]
    have e0 : ∀ (Q : Updst n) b x, Step.tangent X b Q x false = some none := fun Q b x => by
      simp [Step.tangent]
    simp only [Option.isSome_none, e0]
    have hst : Step.stressOf (P.rot a) ((P.rot a).eF (Step.solve X inp P).x)
        ((P.rot a).cQuat (Step.solve X inp P).x)
        = rotSvec (quatToTensor a)
          (Step.stressOf P (P.eF (Step.solve X inp P).x) (P.cQuat (Step.solve X inp P).x)) := by
      rw [Updst.rot_cQuat]
      exact stressOf_rot P hv _ _ (P.qn_cQuat hcn _) ha
    have hhist : Step.newHist X (rotInputs (quatToTensor a) inp) (Hist.ofArray (rotMem a m).hist) hU
        (P.rot a) (Step.solve X inp P) false
        = { Step.newHist X inp (Hist.ofArray m.hist) hU P (Step.solve X inp P) false with
            q := quatProd a
              (Step.newHist X inp (Hist.ofArray m.hist) hU P (Step.solve X inp P) false).q } := by
      rw [histOf_rotMem]
      have hfs : Step.flowStr (P.rot a) = Step.flowStr P := by
        funext y
        unfold Step.flowStr vecdDeff
        rw [P.rot_norm ha]
        rfl
      simp only [Step.newHist, hfs]
      congr 1
      · show Step.flipQuat ((P.rot a).cQuat _) (quatProd a P.cN)
          = quatProd a (Step.flipQuat (P.cQuat _) P.cN)
        unfold Step.flipQuat
        rw [Updst.rot_cQuat, dot4_rot ha]
        split_ifs
        · rw [quatProd_neg]
        · rfl
    rw [hst, hhist]
    cases M.el.getGmod with
    | undef w => rfl
    | fail s =>
      simp only [mapRes, rotMem, histOf, Hist.ofArray_toArray]
      rfl
    | ok g =>
      have hin : vecsInnerSvecDev (rotMem a m).stress (rotInputs (quatToTensor a) inp).d
          = vecsInnerSvecDev m.stress inp.d := inner_rot r2 _ _
      have hin2 : ∀ s, vecsInnerSvecDev (rotSvec (quatToTensor a) s)
          (rotInputs (quatToTensor a) inp).d = vecsInnerSvecDev s inp.d := fun s => inner_rot r2 _ _
      rw [hin, hin2]
      simp only [mapRes, rotMem, histOf, Hist.ofArray_toArray]
      rfl

/-- C33 every rotation is covered: it is that of a unit quaternion, and composing the quaternion with
    the stored one composes the rotations. -/
theorem C33_every_rotation (R : T3) (hR : IsRot R) :
    ∃ a : Vec 4, dot a a = 1 ∧ quatToTensor a = R ∧
      ∀ q, quatToTensor (quatProd a q) = R * quatToTensor q := by
  obtain ⟨a, h1, h2⟩ := exists_quat hR
  exact ⟨a, by rw [dot_self_quat, h1], h2, fun q => by rw [quatToTensor_prod, h2]⟩

/-- C33 rotating the documented form of a stress rotates the tensor it stands for. -/
theorem C33_rotSvec (R : T3) (hR : IsRot R) (s : Vec 7) :
    ofSvecP (rotSvec R s) = R * ofSvecP s * R.transpose := by
  have e : ∀ s : Vec 7, ofSvecP s = devOfSvecP s - s 6 • (1 : T3) := by
    intro s
    ext i j
    fin_cases i <;> fin_cases j <;> simp [ofSvecP, devOfSvecP]
  rw [e, e, devOfSvecP_rot, Matrix.mul_sub, Matrix.sub_mul, Matrix.mul_smul, Matrix.smul_mul,
    Matrix.mul_one, hR.1]
  rfl

example (e : Vec 5) : dot (![3 / 5, 0, 0, 4 / 5] : Vec 4) ![3 / 5, 0, 0, 4 / 5] = 1 ∧
    IsDev (devOfSvecP (exInp exEl e).d) ∧ (exMem e none).mtan = none ∧
    ∃ m', getResponseSngl exExt (exMat exEl) (exInp exEl e) (exMem e none) = .ok m' := by
  refine ⟨?_, ?_, rfl, ex_ok exEl exEl_pos e none⟩
  · simp [dot, Fin.sum_univ_four]; norm_num
  · have : ∀ A : T3, IsDev (devOfSvecP (svecP (sym A))) := by
      intro A
      rw [isDev_iff]
      simp [devOfSvecP, svecP, sym, dev, Matrix.trace_fin_three]
      ring
    exact this _

end Ecm.Props
