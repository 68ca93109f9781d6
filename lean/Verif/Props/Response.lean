/- Property theorems about one update of a material point and sequences of updates
   (src/ecmech/ECMech_evptn.h:990-1246): C07, C22, C23, C32, C38, C48, C53, C54, C57, C58. -/
import Verif.Lemmas.Example
import Verif.Lemmas.Stress
import Verif.Props.Eos
import Verif.Props.KMBalD

namespace Ecm.Props
open Ecm Spec Matrix

variable {n nH : ℕ}

/-- `N` successful updates of one point: each starts from the history left by the one before; all
    other inputs (rates, volumes, energy, stress, time step, tolerance) and the external solvers are
    arbitrary and may differ from update to update. -/
structure Trajectory (M : Material n nH) (N : ℕ) where
  X : ℕ → Ext
  inp : ℕ → Inputs
  m : ℕ → Mem nH n
  m' : ℕ → Mem nH n
  ok : ∀ k < N, getResponseSngl (X k) M (inp k) (m k) = .ok (m' k)
  link : ∀ k, k + 1 < N → (m (k + 1)).hist = (m' k).hist

/-! ## C07 -/

/-- C07 one update: the stored quaternion is a unit quaternion, in the hemisphere of the previous
    one. -/
theorem C07_step (X : Ext) (M : Material n nH) (inp : Inputs) (m m' : Mem nH n)
    (h : getResponseSngl X M inp m = .ok m') :
    dot (histOf m').q (histOf m').q = 1 ∧ 0 ≤ dot (histOf m').q (histOf m).q := by
  obtain ⟨s⟩ := getResponseSngl_ok h
  have hq : (histOf m').q = Step.flipQuat (s.P.cQuat (Step.solve X inp s.P).x) s.P.cN := by
    rw [OkStep.hist_eq s]; rfl
  have h1 := s.P.qn_cQuat (OkStep.unit s) (Step.solve X inp s.P).x
  rw [← dot_self_quat] at h1
  have hcN : s.P.cN = fun i => (1 / vecNorm (histOf m).q) * (histOf m).q i := by
    rw [s.hP]
    funext i
    show vecsVNormalize _ i = _
    simp [vecsVNormalize, vecsVsa, mul_comm]
  have hpos : 0 < vecNorm (histOf m).q := by
    rcases (vecNorm_nonneg (histOf m).q).lt_or_eq with h | h
    · exact h
    · exfalso
      have := OkStep.unit s
      rw [hcN, ← h] at this
      simp [qn] at this
  have hdot : ∀ a : Vec 4, dot a (histOf m).q = vecNorm (histOf m).q * dot a s.P.cN := by
    intro a
    rw [hcN]
    simp only [dot, Fin.sum_univ_four]
    field_simp
  rw [hdot, hq]
  rcases flipQuat_cases (s.P.cQuat (Step.solve X inp s.P).x) s.P.cN with ⟨e, h2⟩ | ⟨e, h2⟩
  · rw [e]; exact ⟨h1, mul_nonneg hpos.le h2⟩
  · rw [e]
    refine ⟨?_, mul_nonneg hpos.le ?_⟩
    · rw [← h1]; simp [dot]
    · rw [dot_neg4]; linarith

/-- C07 any number of updates: every stored quaternion is a unit quaternion (in particular never
    zero), and neighbouring ones lie in the same hemisphere. -/
theorem C07_history {M : Material n nH} {N : ℕ} (T : Trajectory M N) :
    (∀ k < N, dot (histOf (T.m' k)).q (histOf (T.m' k)).q = 1) ∧
    (0 < N → 0 ≤ dot (histOf (T.m' 0)).q (histOf (T.m 0)).q) ∧
    (∀ k, k + 1 < N → 0 ≤ dot (histOf (T.m' (k + 1))).q (histOf (T.m' k)).q) := by
  refine ⟨fun k hk => (C07_step _ _ _ _ _ (T.ok k hk)).1,
    fun h => (C07_step _ _ _ _ _ (T.ok 0 h)).2, fun k hk => ?_⟩
  have := (C07_step _ _ _ _ _ (T.ok (k + 1) hk)).2
  unfold histOf at *
  rwa [T.link k hk] at this

/-- the example step as a trajectory -/
noncomputable def exTraj : Trajectory (exMat exEl) 1 where
  X := fun _ => exExt
  inp := fun _ => exInp exEl ![1, 2, 3, 4, 5]
  m := fun _ => exMem ![1, 2, 3, 4, 5] none
  m' := fun _ => Classical.choose (ex_ok exEl exEl_pos ![1, 2, 3, 4, 5] none)
  ok := fun _ _ => Classical.choose_spec (ex_ok exEl exEl_pos ![1, 2, 3, 4, 5] none)
  link := fun k hk => by omega

example (e : Vec 5) (t : Option (Mat 6 6)) :
    ∃ m', getResponseSngl exExt (exMat exEl) (exInp exEl e) (exMem e t) = .ok m' :=
  ex_ok exEl exEl_pos e t

/-! ## C53, C22 -/

/-- C53 the returned stress is the elastic law at the stored elastic strain, turned by the stored
    orientation, at the new volume with the pressure and energy of the equation of state; both signs
    of the stored quaternion give the same. -/
theorem C53_stress_from_state (X : Ext) (M : Material n nH) (inp : Inputs) (m m' : Mem nH n)
    (h : getResponseSngl X M inp m = .ok m') (q : Vec 4)
    (hq : q = (histOf m').q ∨ q = -(histOf m').q) :
    m'.stress = svecP (quatToTensor q
      * latticeStress M.el (inp.vr 1)
          (M.eos.evalPT (inp.vr 1) (m.eInt - inp.vr 3 * m.stress 6)).1
          (m.eInt - inp.vr 3 * m.stress 6)
          (elasticStrain (inp.vr 1) (histOf m').e)
      * (quatToTensor q).transpose) := by
  obtain ⟨s⟩ := getResponseSngl_ok h
  have hR : quatToTensor q = quatToTensor (s.P.cQuat (Step.solve X inp s.P).x) := by
    have : quatToTensor (histOf m').q = quatToTensor (s.P.cQuat (Step.solve X inp s.P).x) := by
      rw [OkStep.hist_eq s]; exact quatToTensor_flip _ _
    rcases hq with rfl | rfl
    · exact this
    · rw [quatToTensor_neg, this]
  have he : (histOf m').e = s.P.eF (Step.solve X inp s.P).x := by rw [OkStep.hist_eq s]; rfl
  have hv : s.P.detV = inp.vr 1 := by rw [s.hP]
  have hp : s.P.pEos = (M.eos.evalPT (inp.vr 1) (m.eInt - inp.vr 3 * m.stress 6)).1 := by
    rw [s.hP]
    exact congrArg Prod.fst (C20_update M.eos (inp.vr 1) (inp.vr 3) m.eInt (m.stress 6)).2.2
  have hE : s.P.eVref = m.eInt - inp.vr 3 * m.stress 6 := by rw [s.hP]; rfl
  have hel : s.P.el = M.el := by rw [s.hP]
  rw [s.hst, stressOf_eq s.P (hv ▸ s.hv) _ _ (s.P.qn_cQuat (OkStep.unit s) _), hR, he, hv, hp, hE, hel]

/-- C22 the returned pressure is that of the equation of state minus the mean stress by which the
    reference law deviates from a pure bulk law. -/
theorem C22_pressure (X : Ext) (M : Material n nH) (inp : Inputs) (m m' : Mem nH n)
    (h : getResponseSngl X M inp m = .ok m') :
    m'.stress 6 = (M.eos.evalPT (inp.vr 1) (m.eInt - inp.vr 3 * m.stress 6)).1
      - 1 / inp.vr 1 * ((refStress M.el (elasticStrain (inp.vr 1) (histOf m').e)).trace / 3
        - M.el.kBulkMod * Real.log (inp.vr 1)) := by
  have h1 := C53_stress_from_state X M inp m m' h _ (.inl rfl)
  have hq := (C07_step X M inp m m' h).1
  rw [dot_self_quat] at hq
  obtain ⟨s⟩ := getResponseSngl_ok h
  have hv := s.hv.ne'
  obtain ⟨r1, r2, -⟩ := isRot_of_unit hq
  rw [h1]
  have e6 : ∀ A : T3, svecP A 6 = -(A.trace / 3) := fun A => rfl
  rw [e6, trace_conj r2]
  unfold latticeStress
  rw [Matrix.trace_smul, Matrix.trace_add, Matrix.trace_sub, Matrix.trace_smul, Matrix.trace_smul,
      Matrix.trace_smul, Matrix.trace_one, elasticStrain_trace]
  have h4 : ∀ A : T3, (dev A).trace = 0 := fun A => by
    simp [dev, Matrix.trace_fin_three]
  rw [h4]
  simp only [Matrix.trace_fin_three (Matrix.diagonal _), Matrix.diagonal_apply, Matrix.cons_val,
      smul_eq_mul, if_true, Fintype.card_fin]
  field_simp
  push_cast
  ring

/-- C22 cubic crystals: the returned pressure is the equation-of-state pressure. -/
theorem C22_cubic (X : Ext) (M : Material n nH) (inp : Inputs) (m m' : Mem nH n)
    (c11 c12 c44 : ℝ) (hel : M.el = .cubic c11 c12 c44)
    (h : getResponseSngl X M inp m = .ok m') :
    m'.stress 6 = (M.eos.evalPT (inp.vr 1) (m.eInt - inp.vr 3 * m.stress 6)).1 := by
  rw [C22_pressure X M inp m m' h, hel, ← elasticStrain_trace (inp.vr 1) (histOf m').e]
  have : (refStress (.cubic c11 c12 c44) (elasticStrain (inp.vr 1) (histOf m').e)).trace / 3
      = (Elast.cubic c11 c12 c44).kBulkMod * (elasticStrain (inp.vr 1) (histOf m').e).trace := by
    simp [refStress, cubicStress, Matrix.trace_fin_three, Elast.kBulkMod]; ring
  rw [this]; ring

/-- C22 hexagonal crystals: the returned pressure differs by a term proportional to the axial
    deviatoric strain; it vanishes when C11 + C12 = C13 + C33. -/
theorem C22_hexag (X : Ext) (M : Material n nH) (inp : Inputs) (m m' : Mem nH n)
    (c11 c12 c13 c33 c44 g : ℝ) (hel : M.el = .hexag c11 c12 c13 c33 c44 g)
    (h : getResponseSngl X M inp m = .ok m') :
    m'.stress 6 = (M.eos.evalPT (inp.vr 1) (m.eInt - inp.vr 3 * m.stress 6)).1
      - 1 / inp.vr 1 * ((c13 + c33 - c11 - c12) / 3 *
        (1 / (inp.vr 1) ^ (1 / 3 : ℝ) * vecdToSymm (histOf m').e 2 2)) := by
  rw [C22_pressure X M inp m m' h, hel, ← elasticStrain_trace (inp.vr 1) (histOf m').e]
  congr 2
  have hd := (vecdToSymm_isDev (histOf m').e).2
  rw [Matrix.trace_fin_three] at hd
  have e : ∀ i, elasticStrain (inp.vr 1) (histOf m').e i i
      = (1 / (inp.vr 1) ^ (1 / 3 : ℝ)) * vecdToSymm (histOf m').e i i + Real.log (inp.vr 1) / 3 := by
    intro i; simp [elasticStrain]
  simp only [refStress, hexagStress, Matrix.trace_fin_three, Elast.kBulkMod, Matrix.of_apply,
    Matrix.cons_val, e]
  have h0 : vecdToSymm (histOf m').e 0 0 = -vecdToSymm (histOf m').e 1 1
    - vecdToSymm (histOf m').e 2 2 := by linarith
  rw [h0]
  ring

example (e : Vec 5) : (exMat exEl).el = .cubic 3 1 1 ∧
    ∃ m', getResponseSngl exExt (exMat exEl) (exInp exEl e) (exMem e none) = .ok m' :=
  ⟨rfl, ex_ok exEl exEl_pos e none⟩

example (e : Vec 5) : ∃ m', getResponseSngl exExt (exMat (.hexag 3 1 1 4 1 2))
    (exInp (.hexag 3 1 1 4 1 2) e) (exMem e none) = .ok m' := by
  refine ex_ok _ ?_ e none
  simp [Elast.kGmod, Elast.kDiag, vecsssum, Fin.sum_univ_five]
  norm_num

/-! ## C23 -/

/-- C23 the returned energy is the old one minus old pressure times volume increment plus the time
    step times the mean volume times the mean of the old and new deviatoric stress power. -/
theorem C23_energy (X : Ext) (M : Material n nH) (inp : Inputs) (m m' : Mem nH n)
    (h : getResponseSngl X M inp m = .ok m') :
    m'.eInt = m.eInt - inp.vr 3 * m.stress 6 + inp.dt * ((inp.vr 0 + inp.vr 1) / 2)
      * ((ddot (devOfSvecP m.stress) (devOfSvecP inp.d)
        + ddot (devOfSvecP m'.stress) (devOfSvecP inp.d)) / 2) := by
  obtain ⟨s⟩ := getResponseSngl_ok h
  have e : ∀ a b : Vec 7, vecsInnerSvecDev a b = ddot (devOfSvecP a) (devOfSvecP b) := by
    intro a b
    simp [vecsInnerSvecDev, ddot, devOfSvecP, Fin.sum_univ_three]; ring
  rw [s.hE, e, e, (C20_update M.eos (inp.vr 1) (inp.vr 3) m.eInt (m.stress 6)).1.symm]
  simp only [Step.halfVMidDt, Step.eosUpdate]
  ring

/-! ## C54 -/

/-- at the returned state the plastic power per current volume is the dissipation computed by the
    problem -/
theorem disRate_eq (X : Ext) (hX : X.solver.Sound) (M : Material n nH) (ms ss : Fin n → Vec 3)
    (hgeom : M.geom = slipPQ ms ss) (ho : ∀ i, dot (ms i) (ss i) = 0) (inp : Inputs)
    (m m' : Mem nH n) (h : getResponseSngl X M inp m = .ok m') (s : OkStep X M inp m m') :
    s.P.disRate (Step.lastX (Step.solve X inp s.P) m.mtan.isSome)
      = ddot (ofSvecP m'.stress) (quatToTensor (histOf m').q
          * slipGrad (histOf m').gdot ss ms * (quatToTensor (histOf m').q).transpose) := by
  have hlast : Step.lastX (Step.solve X inp s.P) m.mtan.isSome = (Step.solve X inp s.P).x := by
    unfold Step.lastX
    split_ifs
    · rfl
    · exact (hX _ _ _ _ s.hc).2
  have hgd : (histOf m').gdot = s.P.gdot (Step.solve X inp s.P).x := by
    rw [OkStep.hist_eq s, ← hlast]; rfl
  have he : (histOf m').e = s.P.eF (Step.solve X inp s.P).x := by rw [OkStep.hist_eq s]; rfl
  have hq := (C07_step X M inp m m' h).1
  rw [dot_self_quat] at hq
  obtain ⟨r1, r2, -⟩ := isRot_of_unit hq
  have hst := C53_stress_from_state X M inp m m' h _ (.inl rfl)
  have hv : s.P.detV = inp.vr 1 := by rw [s.hP]
  have hC := elastNEtoC_eq s.P (hv ▸ s.hv) (s.P.eF (Step.solve X inp s.P).x)
  have hp : s.P.pEos = (M.eos.evalPT (inp.vr 1) (m.eInt - inp.vr 3 * m.stress 6)).1 := by
    rw [s.hP]
    exact congrArg Prod.fst (C20_update M.eos (inp.vr 1) (inp.vr 3) m.eInt (m.stress 6)).2.2
  have hE : s.P.eVref = m.eInt - inp.vr 3 * m.stress 6 := by rw [s.hP]; rfl
  have hel : s.P.el = M.el := by rw [s.hP]
  rw [hel, hp, hE, hv, ← he] at hC
  have hSs := latticeStress_symm M.el (inp.vr 1)
    (M.eos.evalPT (inp.vr 1) (m.eInt - inp.vr 3 * m.stress 6)).1 (m.eInt - inp.vr 3 * m.stress 6) _
    (elasticStrain_symm (inp.vr 1) (histOf m').e)
  generalize latticeStress M.el (inp.vr 1)
    (M.eos.evalPT (inp.vr 1) (m.eInt - inp.vr 3 * m.stress 6)).1 (m.eInt - inp.vr 3 * m.stress 6)
    (elasticStrain (inp.vr 1) (histOf m').e) = S at *
  set R := quatToTensor (histOf m').q with hR
  have hsy : (R * S * R.transpose).IsSymm := by
    unfold Matrix.IsSymm
    rw [Matrix.transpose_mul, Matrix.transpose_mul, Matrix.transpose_transpose, hSs.eq,
      Matrix.mul_assoc]
  have hof : ofSvecP m'.stress = R * S * R.transpose := by
    have e2 := C01_internal_round_trip (symmToVecds (R * S * R.transpose))
    have e3 := (C01_tensor_round_trip _ hsy)
    rw [hst, ← e3.1, ← e2.2.2.2.2.2]
    exact e3.2.2.1
  have hdd : ∀ A B : T3, ddot A B = (A.transpose * B).trace := by
    intro A B
    simp [ddot, Matrix.trace, Matrix.mul_apply, Fin.sum_univ_three]; ring
  have hconj : ddot (R * S * R.transpose) (R * slipGrad (histOf m').gdot ss ms * R.transpose)
      = ddot S (slipGrad (histOf m').gdot ss ms) := by
    rw [hdd, hdd, Matrix.transpose_mul, Matrix.transpose_mul, Matrix.transpose_transpose]
    have e4 : R * (S.transpose * R.transpose) * (R * slipGrad (histOf m').gdot ss ms * R.transpose)
        = R * (S.transpose * slipGrad (histOf m').gdot ss ms) * R.transpose := by
      calc _ = R * S.transpose * (R.transpose * R) * slipGrad (histOf m').gdot ss ms * R.transpose := by
            simp only [Matrix.mul_assoc]
        _ = _ := by rw [r2, Matrix.mul_one]; simp only [Matrix.mul_assoc]
    rw [e4, trace_conj r2]
  rw [hof, hconj, hlast]
  unfold slipGrad
  rw [C18_power ms ss S hSs _ ho]
  unfold Updst.disRate vecsyadotb Updst.taua
  rw [Finset.mul_sum]
  refine Finset.sum_congr rfl fun i _ => ?_
  have hgeo : s.P.geom = slipPQ ms ss := by rw [s.hP]; exact hgeom
  rw [hgd, hgeo, ← he]
  have hC5 : ∀ k : Fin 5, symmToVecd S k
      = s.P.detVRi * s.P.elastNEtoT (histOf m').e k.castSucc := fun k => by
    rw [← symmToVecds_castSucc, ← hC]; rfl
  simp only [vecsVaTM, hC5, Finset.mul_sum, Finset.sum_mul]
  refine Finset.sum_congr rfl fun k _ => ?_
  ring

/-- C54 with a solver that returns the point it evaluated last: flow strength times effective
    deformation rate is the plastic power per current volume (Cauchy stress against the plastic
    velocity gradient in the sample frame), when the effective rate exceeds 1e-90; otherwise the flow
    strength is the hardness scale of the kinetics. -/
theorem C54_flow_strength (X : Ext) (hX : X.solver.Sound) (M : Material n nH) (ms ss : Fin n → Vec 3)
    (hgeom : M.geom = slipPQ ms ss) (ho : ∀ i, dot (ms i) (ss i) = 0) (inp : Inputs)
    (hd : IsDev (devOfSvecP inp.d)) (m m' : Mem nH n) (h : getResponseSngl X M inp m = .ok m') :
    let Deff := Real.sqrt (2 / 3 * ddot (devOfSvecP inp.d) (devOfSvecP inp.d))
    (1 / 10 ^ 90 < Deff → (histOf m').flowStr * Deff
      = ddot (ofSvecP m'.stress) (quatToTensor (histOf m').q
          * slipGrad (histOf m').gdot ss ms * (quatToTensor (histOf m').q).transpose)) ∧
    (Deff ≤ 1 / 10 ^ 90 → ∀ v sc,
      M.kin.getVals (M.eos.evalPT (inp.vr 1) (m.eInt - inp.vr 3 * m.stress 6)).1
        (M.eos.evalPT (inp.vr 0) m.eInt).2 (histOf m').h = .ok (v, sc) →
      (histOf m').flowStr = sc) := by
  intro Deff
  obtain ⟨s⟩ := getResponseSngl_ok h
  have hD : vecdDeff s.P.dSm = Deff := by
    have e1 : s.P.dSm = symmToVecd (devOfSvecP inp.d) := by
      rw [s.hP]
      obtain ⟨h1, h2, h3, h4⟩ := (isDev_iff _).1 hd
      simp [devOfSvecP] at h4
      funext i
      fin_cases i <;> simp [svecToVecd, symmToVecd, devOfSvecP]
      have : inp.d 0 = -inp.d 1 - inp.d 2 := by linarith
      rw [this]; sqr_ring
    rw [e1, C02_effective_rate _ hd]
  have hfs : (histOf m').flowStr = Step.flowStr s.P
      (Step.lastX (Step.solve X inp s.P) m.mtan.isSome) := by rw [OkStep.hist_eq s]; rfl
  rw [hfs]
  unfold Step.flowStr
  rw [hD, show idpTinySqrt = 1 / 10 ^ 90 from rfl]
  constructor
  · intro hlt
    have hpos : 0 < Deff := lt_trans (by positivity) hlt
    rw [if_pos hlt, disRate_eq X hX M ms ss hgeom ho inp m m' h s]
    field_simp
  · intro hle v sc hv
    rw [if_neg (not_lt.2 hle)]
    have hh : (histOf m').h = s.hU := by rw [OkStep.hist_eq s]; rfl
    have hp : (Step.eosUpdate M inp m).press
        = (M.eos.evalPT (inp.vr 1) (m.eInt - inp.vr 3 * m.stress 6)).1 :=
      congrArg Prod.fst (C20_update M.eos (inp.vr 1) (inp.vr 3) m.eInt (m.stress 6)).2.2
    have hV := s.hV
    rw [hp, ← hh] at hV
    have h3 := hV.symm.trans hv
    have : s.P.hdnScale = s.scale := by rw [s.hP]
    rw [this]
    cases h3
    rfl

/-! ## C32 -/

/-- the kinetics never drive slip against the stress at temperature `T` -/
def DissipativeAt (K : Kin n nH) (T : ℝ) : Prop :=
  ∀ p h v sc, K.getVals p T h = .ok (v, sc) → ∀ i τ, 0 ≤ τ * (K.evalGdot v i τ).gdot

/-- C32 one update: the effective slip rate is the sum of the magnitudes of the slip rates, hence not
    negative, and the accumulated shear grows by it times the time step. -/
theorem C32_step (X : Ext) (M : Material n nH) (inp : Inputs) (m m' : Mem nH n)
    (h : getResponseSngl X M inp m = .ok m') :
    (histOf m').shrateEff = ∑ i, |(histOf m').gdot i| ∧ 0 ≤ (histOf m').shrateEff ∧
    (histOf m').shrEff = (histOf m).shrEff + inp.dt * (histOf m').shrateEff := by
  obtain ⟨s⟩ := getResponseSngl_ok h
  rw [OkStep.hist_eq s]
  refine ⟨rfl, ?_, ?_⟩
  · show 0 ≤ ∑ i : Fin n, _
    exact Finset.sum_nonneg fun i _ => abs_nonneg _
  · simp only [Step.newHist]; ring

/-- C32 one update: the plastic power at the returned state is not negative, when the kinetics never
    oppose the stress. -/
theorem C32_dissipation (X : Ext) (hX : X.solver.Sound) (M : Material n nH) (ms ss : Fin n → Vec 3)
    (hgeom : M.geom = slipPQ ms ss) (ho : ∀ i, dot (ms i) (ss i) = 0) (inp : Inputs)
    (m m' : Mem nH n) (h : getResponseSngl X M inp m = .ok m') (hK : DissipativeAt M.kin m'.tkelv) :
    0 ≤ ddot (ofSvecP m'.stress) (quatToTensor (histOf m').q
          * slipGrad (histOf m').gdot ss ms * (quatToTensor (histOf m').q).transpose) := by
  obtain ⟨s⟩ := getResponseSngl_ok h
  rw [← disRate_eq X hX M ms ss hgeom ho inp m m' h s]
  rw [s.htk] at hK
  have hv : s.P.detV = inp.vr 1 := by rw [s.hP]
  have hgd : s.P.gd = M.kin.evalGdot s.v := by rw [s.hP]
  unfold Updst.disRate Updst.detVRi
  refine mul_nonneg (one_div_nonneg.2 (hv ▸ s.hv.le)) (Finset.sum_nonneg fun i _ => ?_)
  simp only [Updst.gdot, hgd]
  exact hK _ _ _ _ s.hV i _

/-- C32 any number of updates: the accumulated shear is its initial value plus the sum of time step
    times effective rate; it never decreases when the time steps are not negative. -/
theorem C32_history {M : Material n nH} {N : ℕ} (T : Trajectory M N) :
    (∀ k < N, (histOf (T.m' k)).shrEff = (histOf (T.m 0)).shrEff
      + ∑ j ∈ Finset.range (k + 1), (T.inp j).dt * (histOf (T.m' j)).shrateEff) ∧
    ((∀ k < N, 0 ≤ (T.inp k).dt) → ∀ j k, j ≤ k → k < N →
      (histOf (T.m 0)).shrEff ≤ (histOf (T.m' j)).shrEff ∧
      (histOf (T.m' j)).shrEff ≤ (histOf (T.m' k)).shrEff) := by
  have key : ∀ k < N, (histOf (T.m' k)).shrEff = (histOf (T.m 0)).shrEff
      + ∑ j ∈ Finset.range (k + 1), (T.inp j).dt * (histOf (T.m' j)).shrateEff := by
    intro k
    induction k with
    | zero => intro hk; rw [(C32_step _ _ _ _ _ (T.ok 0 hk)).2.2]; simp
    | succ k ih =>
      intro hk
      have h1 := (C32_step _ _ _ _ _ (T.ok (k + 1) hk)).2.2
      have h2 := ih (by omega)
      have h3 : (histOf (T.m (k + 1))).shrEff = (histOf (T.m' k)).shrEff := by
        unfold histOf; rw [T.link k hk]
      rw [h1, h3, h2, Finset.sum_range_succ _ (k + 1)]; ring
  refine ⟨key, fun hdt j k hjk hk => ?_⟩
  have hn : ∀ i < N, 0 ≤ (T.inp i).dt * (histOf (T.m' i)).shrateEff := fun i hi =>
    mul_nonneg (hdt i hi) (C32_step _ _ _ _ _ (T.ok i hi)).2.1
  rw [key k hk, key j (by omega)]
  constructor
  · have := Finset.sum_nonneg (s := Finset.range (j + 1))
      (f := fun i => (T.inp i).dt * (histOf (T.m' i)).shrateEff)
      (fun i hi => hn i (by have := Finset.mem_range.1 hi; omega))
    linarith
  · have := Finset.sum_le_sum_of_subset_of_nonneg (s := Finset.range (j + 1))
      (t := Finset.range (k + 1)) (f := fun i => (T.inp i).dt * (histOf (T.m' i)).shrateEff)
      (Finset.range_mono (by omega))
      (fun i hi _ => hn i (by have := Finset.mem_range.1 hi; omega))
    linarith

/-- C32 the power-law kinetics never oppose the stress. -/
theorem C32_voce (k : Voce) (hm : 0 < k.xm) (hw : 0 < k.gamW) (S : Solver 1) (T : ℝ) :
    DissipativeAt (k.kin S n) T := by
  intro p h v sc hv i τ
  simp only [Voce.kin] at hv
  split_ifs at hv with h0
  cases hv
  exact (C24_sign k hm hw _ τ h0).2.2

/-- C32 the dislocation kinetics never oppose the stress at positive temperature. -/
theorem C32_kmbald {nV : ℕ} [NeZero nV] (k : KMBalD nV) (S : Solver 1) (T : ℝ) (hT : 0 < T)
    (hw : 0 < k.gamWo) (hr : 0 < k.gamRo) (hD : 0 < k.wrD) (hp : 0 < k.p) (hq : 0 < k.q)
    (hc : ∀ j, 0 ≤ k.c1 j * k.muRef) : DissipativeAt (k.kin S n) T := by
  intro p h v sc hv i τ
  simp only [KMBalD.kin, KMBalD.getVals] at hv
  split_ifs at hv with h1 h2 h3 h4
  cases hv
  have hs : 0 < Real.sqrt (h 0) := Real.sqrt_pos.2 (not_le.1 h1)
  refine (C28_sign k _ i ⟨div_pos hw hs, by positivity, hD, ?_, hp, hq, ?_⟩ τ).1
  · have := hc (k.iVal i)
    show 0 ≤ k.c1 (k.iVal i) / T * k.muRef
    rw [div_mul_eq_mul_div]; positivity
  · split_ifs with hg
    · exact not_le.1 fun h => h4 ⟨hg, h⟩
    · have hg' : k.withGA = false := by simpa using hg
      exact not_le.1 fun h => h3 ⟨hg', _, h⟩

example (e : Vec 5) : exExt.solver.Sound ∧ (exMat exEl).geom = slipPQ fccM fccS ∧
    (∀ i, dot (fccM i) (fccS i) = 0) ∧ IsDev (devOfSvecP (exInp exEl e).d) ∧
    (∀ T, DissipativeAt (exMat exEl).kin T) ∧
    ∃ m', getResponseSngl exExt (exMat exEl) (exInp exEl e) (exMem e none) = .ok m' := by
  refine ⟨probe_sound 8, rfl, fun i => (fcc_slip i).2.2, ?_,
    fun T => C32_voce _ (by norm_num [voceExample]) (by norm_num [voceExample]) _ T,
    ex_ok exEl exEl_pos e none⟩
  have : ∀ A : T3, IsDev (devOfSvecP (svecP (sym A))) := by
    intro A
    rw [isDev_iff]
    simp [devOfSvecP, svecP, sym, dev, Matrix.trace_fin_three]
    ring
  exact this _

/-! ## C48 -/

/-- C48 (what holds) the temperature returned is that of the equation of state at the old volume and
    the old energy; for the isothermal equation of state this is also the temperature at the returned
    state. -/
theorem C48_beginning_of_step (X : Ext) (M : Material n nH) (inp : Inputs) (m m' : Mem nH n)
    (h : getResponseSngl X M inp m = .ok m') :
    m'.tkelv = (M.eos.evalPT (inp.vr 0) m.eInt).2 ∧
    (M.eos.isothermal = true → m'.tkelv = (M.eos.evalPT (inp.vr 1) m'.eInt).2) := by
  obtain ⟨s⟩ := getResponseSngl_ok h
  refine ⟨s.htk, fun hi => ?_⟩
  rw [s.htk]
  simp [Step.tK, Eos.evalPT, hi]

/-- C48 the temperature returned is not that of the returned energy and volume: a crystal at rest
    that expands against a pressure loses energy, but the temperature returned is the old one. -/
theorem C48_refuted : ∃ (X : Ext) (M : Material 12 1) (inp : Inputs) (m m' : Mem 1 12),
    X.solver.Sound ∧ getResponseSngl X M inp m = .ok m' ∧
    m'.tkelv ≠ (M.eos.evalPT (inp.vr 1) m'.eInt).2 := by
  obtain ⟨m', hm⟩ := ex_ok exEl exEl_pos 0 none
  refine ⟨exExt, exMat exEl, exInp exEl 0, exMem 0 none, m', probe_sound 8, hm, ?_⟩
  have hL : exL exEl 0 = 0 := by
    unfold exL
    refine Finset.sum_eq_zero fun i _ => ?_
    have ht : (exProb exEl 0 0 0).taua 0 i = 0 := by
      have : ∀ k : Fin 5, (exProb exEl 0 0 0).elastNEtoT ((exProb exEl 0 0 0).eF 0) k.castSucc = 0 := by
        intro k
        have he : (exProb exEl 0 0 0).eF 0 = 0 := (exProb exEl 0 0 0).eF_zero
        rw [he]
        fin_cases k <;> simp [Updst.elastNEtoT, exProb, exEl, Elast.eval, vecsVxa]
      simp [Updst.taua, vecsVaTM, this]
    have hg : (exProb exEl 0 0 0).gdot 0 i = 0 := by
      show (voceExample.evalGdot 1 ((exProb exEl 0 0 0).taua 0 i)).gdot = 0
      rw [ht, (C24_sign voceExample (by norm_num [voceExample]) (by norm_num [voceExample]) 1 0
        one_pos).1]
      simp only [abs_zero, zero_div]
      positivity
    rw [hg, zero_smul]
  have hd : devOfSvecP (exInp exEl 0).d = 0 := by
    show devOfSvecP (svecP (sym (exL exEl 0))) = 0
    rw [hL]
    ext i j
    fin_cases i <;> fin_cases j <;> simp [devOfSvecP, svecP, sym, dev]
  have hE := C23_energy _ _ _ _ _ hm
  rw [hd] at hE
  have h0 : ∀ A : T3, ddot A 0 = 0 := fun A => by simp [ddot]
  rw [h0, h0] at hE
  have hE' : m'.eInt = 1 := by
    rw [hE]; simp [exMem, exInp]; norm_num
  rw [(C48_beginning_of_step _ _ _ _ _ hm).1, hE']
  simp [exMem, exMat, Eos.evalPT, Eos.tK0, Eos.dtde0]

/-! ## C57 -/

/-- C57 a failing update leaves everything but the temperature as it was, except when the failure is
    that of the final modulus check. -/
theorem C57_failure (X : Ext) (M : Material n nH) (inp : Inputs) (m m' : Mem nH n) (msg : String)
    (h : getResponseSngl X M inp m = .fail msg m') :
    (m'.eInt = m.eInt ∧ m'.stress = m.stress ∧ m'.hist = m.hist ∧ m'.sdd = m.sdd ∧
      m'.mtan = m.mtan) ∨
    (M.el.kGmod ≤ 0 ∧ msg = "effective shear modulus negative -- not initialized?") := by
  unfold getResponseSngl at h
  cases h1 : Step.setup M inp m with
  | undef w => simp [h1] at h
  | fail s =>
    simp only [h1, Res.fail.injEq] at h
    rw [← h.2]; exact .inl ⟨rfl, rfl, rfl, rfl, rfl⟩
  | ok a =>
    obtain ⟨hU, P⟩ := a
    simp only [h1, Step.run] at h
    by_cases h2 : (Step.solve X inp P).converged = false
    · simp only [h2, if_true, Res.fail.injEq] at h
      rw [← h.2]; exact .inl ⟨rfl, rfl, rfl, rfl, rfl⟩
    rw [if_neg h2] at h
    cases h3 : Step.tangent X (Step.eosUpdate M inp m).bulkNew P (Step.solve X inp P).x
        m.mtan.isSome with
    | none =>
      simp only [h3, Res.fail.injEq] at h
      rw [← h.2]; exact .inl ⟨rfl, rfl, rfl, rfl, rfl⟩
    | some t =>
      simp only [h3] at h
      by_cases hg : M.el.kGmod ≤ 0
      · right
        have h4 : M.el.getGmod = .fail "effective shear modulus negative -- not initialized?" := by
          unfold Elast.getGmod; rw [if_pos hg]
        simp only [h4, Res.fail.injEq] at h
        exact ⟨hg, h.1.symm⟩
      · have h4 : M.el.getGmod = .ok M.el.kGmod := by unfold Elast.getGmod; rw [if_neg hg]
        simp [h4] at h

/-- C57 in particular: when the solver does not converge on the constructed problem, or the linear
    system of the tangent cannot be solved, the update fails and only the temperature is changed. -/
theorem C57_solver (X : Ext) (M : Material n nH) (inp : Inputs) (m : Mem nH n) (hU : Vec nH)
    (P : Updst n) (h1 : Step.setup M inp m = .ok (hU, P))
    (h2 : (X.solver P.problem inp.tol 200 (fun _ => 0)).converged = false ∨
      (m.mtan.isSome = true ∧
        P.mtan X.lup (X.solver P.problem inp.tol 200 (fun _ => 0)).x = none)) :
    ∃ msg m', getResponseSngl X M inp m = .fail msg m' ∧ m'.eInt = m.eInt ∧ m'.stress = m.stress ∧
      m'.hist = m.hist ∧ m'.sdd = m.sdd ∧ m'.mtan = m.mtan := by
  unfold getResponseSngl
  simp only [h1, Step.run]
  by_cases h3 : (Step.solve X inp P).converged = false
  · rw [if_pos h3]; exact ⟨_, _, rfl, rfl, rfl, rfl, rfl, rfl⟩
  · rw [if_neg h3]
    have h4 := h2.resolve_left h3
    have h5 : Step.tangent X (Step.eosUpdate M inp m).bulkNew P (Step.solve X inp P).x m.mtan.isSome
        = none := by
      unfold Step.tangent
      rw [if_pos h4.1]
      show Option.map _ (P.mtan X.lup (X.solver P.problem inp.tol 200 (fun _ => 0)).x) = none
      rw [h4.2]; rfl
    rw [h5]
    exact ⟨_, _, rfl, rfl, rfl, rfl, rfl, rfl⟩

/-- C57 the modulus check at the end is different: it fails after the new history has been stored. -/
theorem C57_late_failure : ∃ (X : Ext) (M : Material 12 1) (inp : Inputs) (m m' : Mem 1 12)
    (msg : String), getResponseSngl X M inp m = .fail msg m' ∧ m'.hist ≠ m.hist := by
  obtain ⟨s, m', h, hh⟩ := ex_fail (.cubic (-3) 1 1)
    (by norm_num [Elast.kGmod]) ![1, 2, 3, 4, 5] none
  refine ⟨_, _, _, _, m', s, h, fun he => ?_⟩
  rw [he, ex_ofArray] at hh
  have := congrArg Hist.nFEval hh
  simp [exHist, Step.newHist] at this

/-- a solver that never converges -/
def stuck (k : ℕ) : Solver k := fun _ _ _ x0 =>
  { converged := false, x := x0, xLast := x0, nFEvals := 0 }

example (e : Vec 5) : ∃ P, Step.setup (exMat exEl) (exInp exEl e) (exMem e none)
      = .ok ((fun _ => 1), P) ∧
    (({ exExt with solver := stuck 8 } : Ext).solver P.problem (exInp exEl e).tol 200
      (fun _ => 0)).converged = false := ⟨_, ex_setup exEl e none, rfl⟩

/-! ## C38 -/

/-- C38 an update with and one without a tangent buffer, both successful, agree in everything but the
    buffer and the evaluation count (which also counts the evaluation made for the tangent), when the
    solver returns the point it evaluated last. -/
theorem C38_same_answer (X : Ext) (hX : X.solver.Sound) (M : Material n nH) (inp : Inputs)
    (m m1 m2 : Mem nH n) (t : Mat 6 6)
    (h1 : getResponseSngl X M inp { m with mtan := none } = .ok m1)
    (h2 : getResponseSngl X M inp { m with mtan := some t } = .ok m2) :
    m2.stress = m1.stress ∧ m2.eInt = m1.eInt ∧ m2.tkelv = m1.tkelv ∧ m2.sdd = m1.sdd ∧
    (∀ k : Fin (numHist nH n), k.val ≠ 3 → m2.hist k = m1.hist k) ∧
    (histOf m2).nFEval = (histOf m1).nFEval + X.evalCost ∧ m1.mtan = none ∧ m2.mtan ≠ none := by
  obtain ⟨a⟩ := getResponseSngl_ok h1
  obtain ⟨b⟩ := getResponseSngl_ok h2
  have hH : (a.hU, a.kU) = (b.hU, b.kU) := Out.ok.inj (a.hH.symm.trans b.hH)
  obtain ⟨hHU, -⟩ := Prod.mk.inj hH
  have hV : (a.v, a.scale) = (b.v, b.scale) := Out.ok.inj (a.hV.symm.trans (hHU ▸ b.hV))
  obtain ⟨hv, hs⟩ := Prod.mk.inj hV
  have hP : a.P = b.P := by rw [a.hP, b.hP, hv, hs]; rfl
  have hst : m2.stress = m1.stress := by rw [a.hst, b.hst, hP]
  have hx : ∀ w, Step.lastX (Step.solve X inp b.P) w = (Step.solve X inp b.P).x := by
    intro w
    unfold Step.lastX
    split_ifs
    · rfl
    · exact (hX _ _ _ _ b.hc).2
  refine ⟨hst, ?_, ?_, ?_, ?_, ?_, ?_, ?_⟩
  · rw [a.hE, b.hE, hst]; rfl
  · rw [a.htk, b.htk]; rfl
  · have hg : a.g = b.g := Out.ok.inj (a.hg.symm.trans b.hg)
    rw [a.hsdd, b.hsdd, hg]; rfl
  · intro k hk
    rw [a.hhist, b.hhist, hP, hHU]
    simp only [Step.newHist, hx, Hist.toArray, if_neg hk]
  · rw [OkStep.hist_eq a, OkStep.hist_eq b, hP]
    simp [Step.newHist]
  · have := a.ht
    simp only [Step.tangent, Option.isSome_none, Bool.false_eq_true, if_false] at this
    exact (Option.some.inj this).symm
  · intro h0
    have := b.ht
    rw [h0] at this
    simp only [Step.tangent, Option.isSome_some, if_true] at this
    cases h4 : b.P.mtan X.lup (Step.solve X inp b.P).x with
    | none => rw [h4] at this; cases this
    | some u => rw [h4] at this; cases this

/-- C38 success: the update without tangent buffer succeeds whenever the one with a buffer does; the
    converse can only be broken by the linear system of the tangent. -/
theorem C38_same_success (X : Ext) (M : Material n nH) (inp : Inputs) (m : Mem nH n) (t : Mat 6 6) :
    (∀ m2, getResponseSngl X M inp { m with mtan := some t } = .ok m2 →
      ∃ m1, getResponseSngl X M inp { m with mtan := none } = .ok m1) ∧
    (∀ m1, getResponseSngl X M inp { m with mtan := none } = .ok m1 →
      (∃ m2, getResponseSngl X M inp { m with mtan := some t } = .ok m2) ∨
      ∃ m2, getResponseSngl X M inp { m with mtan := some t }
        = .fail "error from SNLS_LUP_SolveX" m2) := by
  have hset : Step.setup M inp { m with mtan := some t } = Step.setup M inp { m with mtan := none } :=
    rfl
  have heos : Step.eosUpdate M inp { m with mtan := some t }
      = Step.eosUpdate M inp { m with mtan := none } := rfl
  unfold getResponseSngl
  rw [hset]
  cases Step.setup M inp { m with mtan := none } with
  | fail s => simp
  | undef w => simp
  | ok a =>
    obtain ⟨hU, P⟩ := a
    simp only [Step.run, heos, Option.isSome_none, Option.isSome_some]
    by_cases h2 : (Step.solve X inp P).converged = false
    · simp [h2]
    simp only [if_neg h2]
    have e0 : ∀ b x, Step.tangent X b P x false = some none := fun b x => by
      simp [Step.tangent]
    rw [e0]
    cases Step.tangent X (Step.eosUpdate M inp { m with mtan := none }).bulkNew P
      (Step.solve X inp P).x true with
    | none => cases M.el.getGmod <;> simp
    | some u => cases M.el.getGmod <;> simp

example (e : Vec 5) (t : Mat 6 6) : exExt.solver.Sound ∧
    (∃ m1, getResponseSngl exExt (exMat exEl) (exInp exEl e) { exMem e none with mtan := none }
      = .ok m1) ∧
    ∃ m2, getResponseSngl exExt (exMat exEl) (exInp exEl e) { exMem e none with mtan := some t }
      = .ok m2 :=
  ⟨probe_sound 8, ex_ok exEl exEl_pos e none, ex_ok exEl exEl_pos e (some t)⟩

/-! ## C58 -/

/-- two sets of arguments that agree in everything but the entries said not to be read: the previous
    effective rate, flow strength and evaluation count, the volumetric entries of the rate and volume
    arrays, and the previous contents of the output-only arrays -/
structure AgreeOnRead (inp1 inp2 : Inputs) (m1 m2 : Mem nH n) : Prop where
  dt : inp1.dt = inp2.dt
  tol : inp1.tol = inp2.tol
  d : ∀ k : Fin 7, k ≠ 6 → inp1.d k = inp2.d k
  w : inp1.w = inp2.w
  vr : ∀ k : Fin 4, k ≠ 2 → inp1.vr k = inp2.vr k
  eInt : m1.eInt = m2.eInt
  stress : m1.stress = m2.stress
  hist : ∀ k : Fin (numHist nH n), k.val ≠ 0 → k.val ≠ 2 → k.val ≠ 3 → m1.hist k = m2.hist k
  mtan : m1.mtan.isSome = m2.mtan.isSome

/-- C58 entries that are not state do not influence the result: the updates succeed, fail (with the
    same message) or are undefined together, and the whole result of a successful one is the same. -/
theorem C58_not_read (X : Ext) (M : Material n nH) (inp1 inp2 : Inputs) (m1 m2 : Mem nH n)
    (h : AgreeOnRead inp1 inp2 m1 m2) :
    (∀ m', getResponseSngl X M inp1 m1 = .ok m' ↔ getResponseSngl X M inp2 m2 = .ok m') ∧
    (∀ s, (∃ m', getResponseSngl X M inp1 m1 = .fail s m') ↔
      ∃ m', getResponseSngl X M inp2 m2 = .fail s m') ∧
    (∀ w, getResponseSngl X M inp1 m1 = .undef w ↔ getResponseSngl X M inp2 m2 = .undef w) := by
  have hh : (histOf m1).e = (histOf m2).e ∧ (histOf m1).q = (histOf m2).q ∧
      (histOf m1).h = (histOf m2).h ∧ (histOf m1).gdot = (histOf m2).gdot ∧
      (histOf m1).shrEff = (histOf m2).shrEff := by
    refine ⟨funext fun i => ?_, funext fun i => ?_, funext fun i => ?_, funext fun i => ?_, ?_⟩ <;>
      exact h.hist _ (by simp <;> omega) (by simp <;> omega) (by simp <;> omega)
  obtain ⟨he, hq, hH, hgd, hsh⟩ := hh
  have hd : svecToVecd inp1.d = svecToVecd inp2.d := by
    unfold svecToVecd
    rw [h.d 0 (by decide), h.d 1 (by decide), h.d 2 (by decide), h.d 3 (by decide),
      h.d 4 (by decide), h.d 5 (by decide)]
  have hin : ∀ s : Vec 7, vecsInnerSvecDev s inp1.d = vecsInnerSvecDev s inp2.d := by
    intro s
    unfold vecsInnerSvecDev
    rw [h.d 0 (by decide), h.d 1 (by decide), h.d 2 (by decide), h.d 3 (by decide),
      h.d 4 (by decide), h.d 5 (by decide)]
  have hv0 := h.vr 0 (by decide)
  have hv1 := h.vr 1 (by decide)
  have hv3 := h.vr 3 (by decide)
  have htK : Step.tK M inp1 m1 = Step.tK M inp2 m2 := by unfold Step.tK; rw [hv0, h.eInt]
  have hu : Step.eosUpdate M inp1 m1 = Step.eosUpdate M inp2 m2 := by
    unfold Step.eosUpdate; rw [hv1, hv3, h.eInt, h.stress]
  have hqn : Step.quatN m1 = Step.quatN m2 := by
    unfold Step.quatN; exact congrArg _ hq
  have hset : Step.setup M inp1 m1 = Step.setup M inp2 m2 := by
    unfold Step.setup
    simp only [htK, hu, hqn, hd, hv1, h.dt, h.w]
    have e1 : (Hist.ofArray m1.hist).q = (Hist.ofArray m2.hist).q := hq
    have e2 : (Hist.ofArray m1.hist).h = (Hist.ofArray m2.hist).h := hH
    have e3 : (Hist.ofArray m1.hist).gdot = (Hist.ofArray m2.hist).gdot := hgd
    have e4 : (Hist.ofArray m1.hist).e = (Hist.ofArray m2.hist).e := he
    rw [e1, e2, e3, e4]
  have hsol : ∀ P : Updst n, Step.solve X inp1 P = Step.solve X inp2 P := fun P => by
    unfold Step.solve; rw [h.tol]
  have hnew : ∀ (hU : Vec nH) (P : Updst n) r w, Step.newHist X inp1 (Hist.ofArray m1.hist) hU P r w
      = Step.newHist X inp2 (Hist.ofArray m2.hist) hU P r w := by
    intro hU P r w
    have e5 : (Hist.ofArray m1.hist).shrEff = (Hist.ofArray m2.hist).shrEff := hsh
    unfold Step.newHist
    rw [e5, h.dt]
  have hhalf : Step.halfVMidDt inp1 = Step.halfVMidDt inp2 := by
    unfold Step.halfVMidDt; rw [hv0, hv1, h.dt]
  unfold getResponseSngl
  rw [hset]
  cases Step.setup M inp2 m2 with
  | fail s => simp
  | undef w => simp
  | ok a =>
    obtain ⟨hU, P⟩ := a
    simp only [Step.run, hsol, hu, h.mtan, hnew, hhalf, hin, htK, h.stress]
    by_cases h2 : (Step.solve X inp2 P).converged = false
    · simp [h2]
    simp only [if_neg h2]
    cases Step.tangent X (Step.eosUpdate M inp2 m2).bulkNew P (Step.solve X inp2 P).x
      m2.mtan.isSome with
    | none => simp
    | some u => cases M.el.getGmod <;> simp

/-- C58 the accumulated shear is only added to: changing it on input by `c` changes it on output by
    `c` and nothing else. -/
theorem C58_accumulator (X : Ext) (M : Material n nH) (inp : Inputs) (m m' : Mem nH n) (c : ℝ)
    (h : getResponseSngl X M inp m = .ok m') :
    getResponseSngl X M inp
        { m with hist := fun k => if k.val = 1 then m.hist k + c else m.hist k }
      = .ok { m' with hist := fun k => if k.val = 1 then m'.hist k + c else m'.hist k } := by
  set m2 : Mem nH n := { m with hist := fun k => if k.val = 1 then m.hist k + c else m.hist k } with hm2
  have he : (histOf m2).e = (histOf m).e := funext fun i => by
    simp [histOf, Hist.ofArray, hm2]; omega
  have hq : (histOf m2).q = (histOf m).q := funext fun i => by
    simp [histOf, Hist.ofArray, hm2]; omega
  have hH : (histOf m2).h = (histOf m).h := funext fun i => by
    simp [histOf, Hist.ofArray, hm2]; omega
  have hgd : (histOf m2).gdot = (histOf m).gdot := funext fun i => by
    simp [histOf, Hist.ofArray, hm2]; omega
  have hsh : (histOf m2).shrEff = (histOf m).shrEff + c := by
    simp [histOf, Hist.ofArray, hm2]
  have hset : Step.setup M inp m2 = Step.setup M inp m := by
    have e1 : (Hist.ofArray m2.hist).q = (Hist.ofArray m.hist).q := hq
    have e2 : (Hist.ofArray m2.hist).h = (Hist.ofArray m.hist).h := hH
    have e3 : (Hist.ofArray m2.hist).gdot = (Hist.ofArray m.hist).gdot := hgd
    have e4 : (Hist.ofArray m2.hist).e = (Hist.ofArray m.hist).e := he
    have e5 : Step.quatN m2 = Step.quatN m := by unfold Step.quatN; rw [e1]
    unfold Step.setup
    simp only [e1, e2, e3, e4, e5]
    rfl
  have hnew : ∀ (hU : Vec nH) (P : Updst n) r w,
      (Step.newHist X inp (Hist.ofArray m2.hist) hU P r w).toArray
      = fun k => if k.val = 1 then
          (Step.newHist X inp (Hist.ofArray m.hist) hU P r w).toArray k + c
        else (Step.newHist X inp (Hist.ofArray m.hist) hU P r w).toArray k := by
    intro hU P r w
    have e5 : (Hist.ofArray m2.hist).shrEff = (Hist.ofArray m.hist).shrEff + c := hsh
    funext k
    by_cases hk : k.val = 1
    · simp only [Hist.toArray, Step.newHist, hk, e5]; norm_num; ring
    · simp only [Hist.toArray, Step.newHist, if_neg hk]
  unfold getResponseSngl at *
  rw [hset]
  cases h1 : Step.setup M inp m with
  | fail s => simp [h1] at h
  | undef w => simp [h1] at h
  | ok a =>
    obtain ⟨hU, P⟩ := a
    simp only [h1, Step.run] at h
    simp only [Step.run, hnew]
    have hu : Step.eosUpdate M inp m2 = Step.eosUpdate M inp m := rfl
    have ht : m2.mtan = m.mtan := rfl
    rw [hu, ht]
    by_cases h2 : (Step.solve X inp P).converged = false
    · simp [h2] at h
    rw [if_neg h2] at h ⊢
    cases h3 : Step.tangent X (Step.eosUpdate M inp m).bulkNew P (Step.solve X inp P).x
        m.mtan.isSome with
    | none => simp [h3] at h
    | some u =>
      simp only [h3] at h ⊢
      cases h4 : M.el.getGmod with
      | fail s => simp [h4] at h
      | undef w => simp [h4] at h
      | ok g =>
        simp only [h4, Res.ok.injEq] at h ⊢
        rw [← h]
        rfl

example (e : Vec 5) : ∃ inp2 m2, AgreeOnRead (exInp exEl e) inp2 (exMem e none) m2 ∧
    (exInp exEl e).vr ≠ inp2.vr ∧ (exMem e none).hist ≠ m2.hist := by
  refine ⟨{ exInp exEl e with vr := ![1, 2, 5, 1] },
    { exMem e none with hist := fun k => if k.val = 2 then 12 else (exMem e none).hist k }, ?_, ?_, ?_⟩
  · refine ⟨rfl, rfl, fun _ _ => rfl, rfl, fun k hk => ?_, rfl, rfl, fun k _ h2 _ => ?_, rfl⟩
    · fin_cases k <;> simp [exInp] at hk ⊢
    · simp [h2]
  · intro h
    have := congrFun h 2
    simp [exInp] at this
  · intro h
    have := congrFun h ⟨2, by norm_num⟩
    simp [exMem, Hist.toArray, exHist] at this

end Ecm.Props
