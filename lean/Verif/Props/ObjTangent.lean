/- Property theorem C101: frame indifference of the update with its tangent
   (src/ecmech/ECMech_evptn.h:796-912, 1137-1166). -/
import Verif.Lemmas.ObjTangent
import Verif.Props.Objectivity
import Verif.Props.PlainNewton

namespace Ecm.Props
open Ecm Spec Matrix

variable {n nH : ℕ}

/-- the symmetric tensor with Voigt components `v` in engineering form (shears doubled) -/
noncomputable def ofEng (v : Vec 6) : T3 := !![v 0, v 5 / 2, v 4 / 2; v 5 / 2, v 1, v 3 / 2; v 4 / 2, v 3 / 2, v 2]

/-- Voigt components in engineering form -/
def toEng (E : T3) : Vec 6 := ![E 0 0, E 1 1, E 2 2, 2 * E 1 2, 2 * E 0 2, 2 * E 0 1]

/-- the stress increment a tangent gives for a strain increment -/
def stressInc (A : Mat 6 6) (E : T3) : T3 := ofVoigt (A.mulVec (toEng E))

/-- the tangent seen by a rotated observer: strain increments are turned back, the stress increment is
    turned -/
noncomputable def rotTan (R : T3) (A : Mat 6 6) : Mat 6 6 := fun i j =>
  voigt (R * stressInc A (R.transpose * ofEng (Pi.single j 1) * R) * R.transpose) i

/-- memory seen by a rotated observer, with the tangent -/
noncomputable def rotMemT (a : Vec 4) (m : Mem nH n) : Mem nH n :=
  { rotMem a m with mtan := m.mtan.map (rotTan (quatToTensor a)) }

/-- whether the linear solver reports an error depends only on the matrix, as with a factorisation -/
def LupUniform (L : LUP) : Prop := ∀ A B B', (L A B).isSome = (L A B').isSome

/-! ### helpers -/

theorem toEng_ofEng (v : Vec 6) : toEng (ofEng v) = v := by
  ext i
  fin_cases i <;> simp [toEng, ofEng] <;> ring

theorem ofEng_toEng {E : T3} (hE : E.IsSymm) : ofEng (toEng E) = E := by
  have h01 := hE.apply 0 1
  have h02 := hE.apply 0 2
  have h12 := hE.apply 1 2
  ext i j
  fin_cases i <;> fin_cases j <;> simp [toEng, ofEng, h01, h02, h12]

theorem ofEng_isSymm (v : Vec 6) : (ofEng v).IsSymm := by
  ext i j
  fin_cases i <;> fin_cases j <;> rfl

theorem ofVoigt_isSymm (v : Vec 6) : (ofVoigt v).IsSymm := by
  ext i j
  fin_cases i <;> fin_cases j <;> rfl

theorem ofVoigt_voigt {E : T3} (hE : E.IsSymm) : ofVoigt (voigt E) = E := by
  have h01 := hE.apply 0 1
  have h02 := hE.apply 0 2
  have h12 := hE.apply 1 2
  ext i j
  fin_cases i <;> fin_cases j <;> simp [ofVoigt, voigt, h01, h02, h12]

theorem voigt_ofVoigt (v : Vec 6) : voigt (ofVoigt v) = v := by
  ext i
  fin_cases i <;> rfl

theorem isSymm_conj (R : T3) {E : T3} (hE : E.IsSymm) : (R * E * R.transpose).IsSymm := by
  unfold Matrix.IsSymm
  rw [Matrix.transpose_mul, Matrix.transpose_mul, Matrix.transpose_transpose, hE.eq, Matrix.mul_assoc]

theorem isSymm_conjT (R : T3) {E : T3} (hE : E.IsSymm) : (R.transpose * E * R).IsSymm := by
  have := isSymm_conj R.transpose hE
  rwa [Matrix.transpose_transpose] at this

/-- a tangent is known from the stress increments -/
theorem tan_ext {A B : Mat 6 6} (h : ∀ E : T3, E.IsSymm → stressInc A E = stressInc B E) : A = B := by
  apply mat_ext_mulVec
  intro v
  have := congrArg voigt (h (ofEng v) (ofEng_isSymm v))
  unfold stressInc at this
  rwa [voigt_ofVoigt, voigt_ofVoigt, toEng_ofEng] at this

/-- linear functions of the engineering components -/
theorem rotTan_mulVec (R : T3) (A : Mat 6 6) (v : Vec 6) :
    (rotTan R A).mulVec v = voigt (R * stressInc A (R.transpose * ofEng v * R) * R.transpose) := by
  let f : Vec 6 →ₗ[ℝ] Vec 6 :=
    { toFun := fun v => voigt (R * stressInc A (R.transpose * ofEng v * R) * R.transpose)
      map_add' := fun u v => by
        have e1 : ofEng (u + v) = ofEng u + ofEng v := by
          ext i j; fin_cases i <;> fin_cases j <;> simp [ofEng] <;> ring
        have e2 : ∀ E F : T3, stressInc A (E + F) = stressInc A E + stressInc A F := by
          intro E F
          have : toEng (E + F) = toEng E + toEng F := by
            ext i; fin_cases i <;> simp [toEng] <;> ring
          unfold stressInc
          rw [this, Matrix.mulVec_add]
          ext i j; fin_cases i <;> fin_cases j <;> simp [ofVoigt]
        have e3 : ∀ E F : T3, voigt (E + F) = voigt E + voigt F := by
          intro E F
          ext i; fin_cases i <;> simp [voigt]
        rw [e1, Matrix.mul_add, Matrix.add_mul, e2, Matrix.mul_add, Matrix.add_mul, e3]
      map_smul' := fun c v => by
        have e1 : ofEng (c • v) = c • ofEng v := by
          ext i j; fin_cases i <;> fin_cases j <;> simp [ofEng] <;> ring
        have e2 : ∀ E : T3, stressInc A (c • E) = c • stressInc A E := by
          intro E
          have : toEng (c • E) = c • toEng E := by
            ext i; fin_cases i <;> simp [toEng] <;> ring
          unfold stressInc
          rw [this, Matrix.mulVec_smul]
          ext i j; fin_cases i <;> fin_cases j <;> simp [ofVoigt]
        have e3 : ∀ E : T3, voigt (c • E) = c • voigt E := by
          intro E
          ext i; fin_cases i <;> simp [voigt]
        rw [e1, Matrix.mul_smul, Matrix.smul_mul, e2, Matrix.mul_smul, Matrix.smul_mul, e3, RingHom.id_apply] }
  have h : rotTan R A = LinearMap.toMatrix' f := by
    ext i j
    rw [LinearMap.toMatrix'_apply]
    rfl
  rw [h, LinearMap.toMatrix'_mulVec]
  rfl

/-- **C101, what the observer sees.** The tangent of a rotated observer gives for a turned strain
    increment the turned stress increment, and it is the only matrix that does. -/
theorem C101_observer (R : T3) (hR : IsRot R) (A B : Mat 6 6) :
    B = rotTan R A ↔ ∀ E : T3, E.IsSymm →
      stressInc B (R * E * R.transpose) = R * stressInc A E * R.transpose := by
  obtain ⟨r1, r2, -⟩ := hR
  have back : ∀ E : T3, R.transpose * (R * E * R.transpose) * R = E := by
    intro E
    calc _ = (R.transpose * R) * E * (R.transpose * R) := by simp only [Matrix.mul_assoc]
      _ = E := by rw [r2, Matrix.one_mul, Matrix.mul_one]
  have forth : ∀ E : T3, R * (R.transpose * E * R) * R.transpose = E := by
    intro E
    calc _ = (R * R.transpose) * E * (R * R.transpose) := by simp only [Matrix.mul_assoc]
      _ = E := by rw [r1, Matrix.one_mul, Matrix.mul_one]
  have key : ∀ E : T3, E.IsSymm → stressInc (rotTan R A) (R * E * R.transpose) = R * stressInc A E * R.transpose := by
    intro E hE
    show ofVoigt ((rotTan R A).mulVec (toEng (R * E * R.transpose))) = _
    rw [rotTan_mulVec, ofEng_toEng (isSymm_conj R hE), back]
    exact ofVoigt_voigt (isSymm_conj R (ofVoigt_isSymm _))
  constructor
  · rintro rfl
    exact key
  · intro h
    refine tan_ext fun E hE => ?_
    have h1 := h _ (isSymm_conjT R hE)
    have h2 := key _ (isSymm_conjT R hE)
    rw [forth] at h1 h2
    rw [h1, h2]

theorem lup_det {L : LUP} (hL : L.Sound) (hu : LupUniform L) {A : Mat 8 8} {B Y : Mat 5 8} (h : L A B = some Y) :
    A.det ≠ 0 := by
  have hs : ∀ b : Vec 8, ∃ y, A.mulVec y = b := by
    intro b
    have h1 : (L A fun _ => b).isSome := (hu A _ B).trans (by rw [h]; rfl)
    obtain ⟨Z, hZ⟩ := Option.isSome_iff_exists.1 h1
    exact ⟨Z 0, funext fun i => hL A _ Z hZ 0 i⟩
  choose g hg using hs
  have : A * (Matrix.of fun i j => g (Pi.single j 1) i) = 1 := by
    ext i j
    have := congrFun (hg (Pi.single j 1)) i
    rw [Matrix.mul_apply]
    refine Eq.trans this ?_
    rw [Matrix.one_apply, Pi.single_apply]
  intro h0
  have h1 := congrArg Matrix.det this
  rw [Matrix.det_mul, h0, zero_mul, Matrix.det_one] at h1
  exact zero_ne_one h1

/-- **C101, the tangent.** A rotated observer gets the rotated tangent, or the same failure.  For every
    linear solver that meets its contract and whose success depends on the matrix only. -/
theorem C101_tangent (X : Ext) (hL : X.lup.Sound) (hu : LupUniform X.lup) (K : ℝ) (P : Updst n)
    (hcn : dot P.cN P.cN = 1) (a : Vec 4) (ha : dot a a = 1) (x : Vec 8) (want : Bool) :
    Step.tangent X K (P.rot a) x want
      = (Step.tangent X K P x want).map (Option.map (rotTan (quatToTensor a))) := by
  rw [dot_self_quat] at hcn ha
  cases want with
  | false => rfl
  | true =>
    unfold Step.tangent Updst.mtan
    simp only [if_true]
    cases hY : X.lup (P.jacU x) (P.pfracRhsT x) with
    | none =>
      have h : X.lup ((P.rot a).jacU x) ((P.rot a).pfracRhsT x) = none := by
        rw [P.rot_jacU ha]
        have := hu (P.jacU x) ((P.rot a).pfracRhsT x) (P.pfracRhsT x)
        rw [hY] at this
        exact Option.isNone_iff_eq_none.1 (by simpa using this)
      rw [h]
      rfl
    | some Y =>
      have h : ∃ Y', X.lup ((P.rot a).jacU x) ((P.rot a).pfracRhsT x) = some Y' := by
        rw [P.rot_jacU ha]
        have := hu (P.jacU x) ((P.rot a).pfracRhsT x) (P.pfracRhsT x)
        rw [hY] at this
        exact Option.isSome_iff_exists.1 this
      obtain ⟨Y', hY'⟩ := h
      rw [hY']
      simp only [Option.map_some, Option.some.injEq]
      rw [C101_observer _ (isRot_of_unit ha)]
      obtain ⟨a1, a2, -⟩ := isRot_of_unit ha
      have hd := lup_det hL hu hY
      have hYY := P.rot_solutions ha hcn x hd (hL _ _ _ hY) (hL _ _ _ hY')
      intro E hE
      have e1 := (P.rot a).tangent_tensor K x Y' (quatToTensor a * E * (quatToTensor a).transpose)
        (isSymm_conj _ hE)
      have e2 := P.tangent_tensor K x Y E hE
      have hsum : (fun k => ∑ j, Y' j k * symmToVecd (quatToTensor a * E * (quatToTensor a).transpose) j)
          = fun k => ∑ j, Y j k * symmToVecd E j := by
        rw [symmToVecd_conj a1 a2 hE, hYY]
        have o := (getRotMatVecd_orth a1 a2).2
        funext k
        show ((getRotMatVecd (quatToTensor a) * Y).transpose.mulVec
          ((getRotMatVecd (quatToTensor a)).mulVec (symmToVecd E))) k = (Y.transpose.mulVec (symmToVecd E)) k
        rw [Matrix.mulVec_mulVec, Matrix.transpose_mul, Matrix.mul_assoc, o, Matrix.mul_one]
      have hs1 := congrFun hsum (iE 1)
      have ht : (quatToTensor a * E * (quatToTensor a).transpose).trace = E.trace := trace_conj a2
      rw [hsum, hs1, P.rot_dStress ha hcn, ht] at e1
      refine e1.trans ?_
      show _ = quatToTensor a * ofVoigt _ * (quatToTensor a).transpose
      refine Eq.trans ?_ (congrArg (fun T => quatToTensor a * T * (quatToTensor a).transpose) e2.symm)
      show _ • _ + _ = _
      rw [Matrix.mul_add, Matrix.add_mul, Matrix.mul_smul, Matrix.smul_mul, Matrix.mul_smul, Matrix.smul_mul,
        Matrix.mul_one, a1]
      rfl

/-- **C101, the update.** The whole update including the tangent is frame indifferent: a rotated observer
    gets the same failure or, on success, the same scalars and the rotated stress, orientation and
    tangent.  For every nonlinear solver. -/
theorem C101_frame (X : Ext) (hL : X.lup.Sound) (hu : LupUniform X.lup) (M : Material n nH) (inp : Inputs)
    (m : Mem nH n) (a : Vec 4) (ha : dot a a = 1) (hd : IsDev (devOfSvecP inp.d)) :
    getResponseSngl X M (rotInputs (quatToTensor a) inp) (rotMemT a m)
      = mapRes (rotMemT a) (getResponseSngl X M inp m) := by
  have ha' := ha
  rw [dot_self_quat] at ha
  have r2 := (isRot_of_unit ha).2.1
  unfold getResponseSngl
  have hset : Step.setup M (rotInputs (quatToTensor a) inp) (rotMemT a m)
      = (Step.setup M inp m).bind fun u => .ok (u.1, u.2.rot a) := setup_rot M inp m ha hd
  rw [hset]
  cases h1 : Step.setup M inp m with
  | undef w => rfl
  | fail s =>
    show Res.fail s _ = Res.fail s _
    rfl
  | ok u =>
    obtain ⟨hU, P⟩ := u
    obtain ⟨kU, v, sc, a1, a2, a3, a4, a5, a6, a7⟩ := Step.setup_ok h1
    have hcn : qn P.cN = 1 := by rw [a7]; exact qn_quatN a1
    have hv : 0 < P.detV := by rw [a7]; exact a4
    simp only [Out.bind, Step.run]
    have hsol : Step.solve X (rotInputs (quatToTensor a) inp) (P.rot a) = Step.solve X inp P := by
      unfold Step.solve
      rw [P.rot_problem ha hcn]
      rfl
    rw [hsol]
    by_cases h2 : (Step.solve X inp P).converged = false
    · simp only [h2, if_true]; rfl
    simp only [if_neg h2]
    have hm : (rotMemT a m).mtan.isSome = m.mtan.isSome := by
      show (m.mtan.map _).isSome = _
      rw [Option.isSome_map]
    have hue : Step.eosUpdate M (rotInputs (quatToTensor a) inp) (rotMemT a m)
      = Step.eosUpdate M inp m := rfl
    rw [hm, hue, C101_tangent X hL hu _ P (by rw [dot_self_quat]; exact hcn) a ha']
    generalize m.mtan.isSome = want
    cases Step.tangent X (Step.eosUpdate M inp m).bulkNew P (Step.solve X inp P).x want with
    | none => rfl
    | some t =>
    simp only [Option.map_some]
    have hst : Step.stressOf (P.rot a) ((P.rot a).eF (Step.solve X inp P).x)
        ((P.rot a).cQuat (Step.solve X inp P).x)
        = rotSvec (quatToTensor a)
          (Step.stressOf P (P.eF (Step.solve X inp P).x) (P.cQuat (Step.solve X inp P).x)) := by
      rw [Updst.rot_cQuat]
      exact stressOf_rot P hv _ _ (P.qn_cQuat hcn _) ha
    have hhist : Step.newHist X (rotInputs (quatToTensor a) inp) (Hist.ofArray (rotMemT a m).hist) hU
        (P.rot a) (Step.solve X inp P) want
        = { Step.newHist X inp (Hist.ofArray m.hist) hU P (Step.solve X inp P) want with
            q := quatProd a
              (Step.newHist X inp (Hist.ofArray m.hist) hU P (Step.solve X inp P) want).q } := by
      have hh : Hist.ofArray (rotMemT a m).hist = { histOf m with q := quatProd a (histOf m).q } := histOf_rotMem a m
      rw [hh]
      have hfs : Step.flowStr (P.rot a) = Step.flowStr P := by
        funext y
        unfold Step.flowStr vecdDeff
        rw [P.rot_norm ha]
        rfl
      simp only [Step.newHist, hfs]
      congr 1
      · show Step.flipQuat ((P.rot a).cQuat _) (quatProd a P.cN)
          = quatProd a (Step.flipQuat (P.cQuat _) P.cN)
        unfold Step.flipQuat
        rw [Updst.rot_cQuat, dot4_rot ha]
        split_ifs
        · rw [quatProd_neg]
        · rfl
    rw [hst, hhist]
    cases M.el.getGmod with
    | undef w => rfl
    | fail s =>
      simp only [mapRes, rotMemT, rotMem, histOf, Hist.ofArray_toArray]
      rfl
    | ok g =>
      have hin : vecsInnerSvecDev (rotMemT a m).stress (rotInputs (quatToTensor a) inp).d
          = vecsInnerSvecDev m.stress inp.d := inner_rot r2 _ _
      have hin2 : ∀ s, vecsInnerSvecDev (rotSvec (quatToTensor a) s)
          (rotInputs (quatToTensor a) inp).d = vecsInnerSvecDev s inp.d := fun s => inner_rot r2 _ _
      rw [hin, hin2]
      simp only [mapRes, rotMemT, rotMem, histOf, Hist.ofArray_toArray]
      rfl

theorem idealLup_uniform : LupUniform idealLup := by
  intro A B B'
  unfold idealLup
  split_ifs <;> rfl

/-- copper with rotating axes and a non-zero elastic strain, seen by a turned observer: the update gives a
    tangent, and the observer gets the turned one -/
example (t : Mat 6 6) : ∃ m' : Mem 1 12,
    getResponseSngl ⟨newtonSolver 1 8, idealLup, 1⟩ newtonCopper (nanoInp pullD ![0, 0, 1])
      (nanoMem ![1 / 10 ^ 5, 0, 0, 0, 0] (some t)) = .ok m' ∧
    getResponseSngl ⟨newtonSolver 1 8, idealLup, 1⟩ newtonCopper
      (rotInputs (quatToTensor ![3 / 5, 0, 0, 4 / 5]) (nanoInp pullD ![0, 0, 1]))
      (rotMemT ![3 / 5, 0, 0, 4 / 5] (nanoMem ![1 / 10 ^ 5, 0, 0, 0, 0] (some t)))
      = .ok (rotMemT ![3 / 5, 0, 0, 4 / 5] m') := by
  have ha : dot (![3 / 5, 0, 0, 4 / 5] : Vec 4) ![3 / 5, 0, 0, 4 / 5] = 1 := by
    simp [dot, Fin.sum_univ_four]; norm_num
  obtain ⟨m', h, -⟩ := nano_step _ pullD_dev pullD_frob.1 pullD_frob.2 ![0, 0, 1]
    (by simp [len, dot, Fin.sum_univ_three]) ![1 / 10 ^ 5, 0, 0, 0, 0]
    (by simp [len, dot, Fin.sum_univ_five]) (some t)
  refine ⟨m', h, ?_⟩
  rw [C101_frame _ idealLup_sound idealLup_uniform _ _ _ _ ha pullD_dev, h]
  rfl

end Ecm.Props
