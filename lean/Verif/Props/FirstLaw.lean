/- Property theorems C94: the work of the shape change as stored elastic energy plus heat of slip
   (src/ecmech/ECMech_evptn.h:1049-1077, 1200-1239). -/
import Verif.Props.VolumeCycle
import Verif.Props.Heat
import Verif.Lemmas.RotRoundAux
import Verif.Lemmas.Symmetry

namespace Ecm.Props
open Ecm Spec Classical

variable {n nH : ℕ}

/-- deviatoric elastic strain of a crystal at relative volume `v`, in lattice axes -/
noncomputable def shapeStrain (v : ℝ) (m : Mem nH n) : T3 := (1 / v ^ (1 / 3 : ℝ)) • vecdToSymm (histOf m).e

/-- elastic energy of a deviatoric strain, per reference volume -/
noncomputable def storedE (el : Elast) (E : T3) : ℝ := 1 / 2 * ddot E (refStress el E)

/-- deviatoric Cauchy stress of a crystal in lattice axes -/
noncomputable def latS (el : Elast) (v : ℝ) (m : Mem nH n) : T3 := (1 / v) • dev (refStress el (shapeStrain v m))

/-- deviatoric Cauchy stress that belongs to the stored state, in sample axes -/
noncomputable def stateS (el : Elast) (v : ℝ) (m : Mem nH n) : T3 :=
  quatToTensor (histOf m).q * latS el v m * (quatToTensor (histOf m).q).transpose

/-- deformation rate of the slip at the end of the step, in sample axes -/
noncomputable def slipD (Ms Ss : Fin n → Vec 3) (m' : Mem nH n) : T3 :=
  quatToTensor (histOf m').q * dev (sym (slipGrad (histOf m').gdot Ss Ms)) * (quatToTensor (histOf m').q).transpose

/-- the same for the part of the imposed rate that the solver's tolerance leaves out -/
noncomputable def lostD (Ms Ss : Fin n → Vec 3) (inp : Inputs) (m m' : Mem nH n) : T3 :=
  quatToTensor (histOf m').q * lostRate Ms Ss inp m m' * (quatToTensor (histOf m').q).transpose

/-- work of the mean of old and new stress on the rate `D` during the step, at constant volume `v` -/
noncomputable def meanWork (v : ℝ) (inp : Inputs) (m m' : Mem nH n) (D : T3) : ℝ :=
  inp.dt * v * ((ddot (devOfSvecP m.stress) D + ddot (devOfSvecP m'.stress) D) / 2)

/-- effect of the turning of the lattice during the step on the elastic energy -/
noncomputable def turnWork (el : Elast) (v : ℝ) (m m' : Mem nH n) : ℝ :=
  v / 2 * ddot ((quatToTensor (histOf m').q).transpose * stateS el v m * quatToTensor (histOf m').q - latS el v m)
    (shapeStrain v m' - shapeStrain v m)

theorem ddot_add_r (A B C : T3) : ddot A (B + C) = ddot A B + ddot A C := by
  simp [ddot, Fin.sum_univ_three]; ring
theorem ddot_sub_r (A B C : T3) : ddot A (B - C) = ddot A B - ddot A C := by
  simp [ddot, Fin.sum_univ_three]; ring
theorem ddot_sub_l (A B C : T3) : ddot (A - B) C = ddot A C - ddot B C := by
  simp [ddot, Fin.sum_univ_three]; ring
theorem ddot_smul_l (k : ℝ) (A B : T3) : ddot (k • A) B = k * ddot A B := by
  simp [ddot, Fin.sum_univ_three]; ring
theorem ddot_smul_r (k : ℝ) (A B : T3) : ddot A (k • B) = k * ddot A B := by
  simp [ddot, Fin.sum_univ_three]; ring

theorem ddot_dev_left {A B : T3} (hB : B.trace = 0) : ddot (dev A) B = ddot A B := by
  rw [Matrix.trace_fin_three] at hB
  simp [ddot, dev, Fin.sum_univ_three, Matrix.trace_fin_three]
  linear_combination -((A 0 0 + A 1 1 + A 2 2) / 3) * hB

theorem cubic_symm (c11 c12 c44 : ℝ) (A B : T3) : ddot A (cubicStress c11 c12 c44 B) = ddot B (cubicStress c11 c12 c44 A) := by
  simp [ddot, cubicStress, Fin.sum_univ_three]; ring

/-- pulling a rotation from one side of the contraction to the other -/
theorem ddot_pull {R : T3} (h : IsRot R) (A B : T3) : ddot A (R * B * R.transpose) = ddot (R.transpose * A * R) B := by
  have e : A = R * (R.transpose * A * R) * R.transpose := by
    calc A = (R * R.transpose) * A * (R * R.transpose) := by rw [h.1, one_mul, mul_one]
      _ = _ := by simp only [Matrix.mul_assoc]
  conv_lhs => rw [e]
  exact ddot_conj h.2.1 _ _

theorem shapeStrain_dev (v : ℝ) (m : Mem nH n) : IsDev (shapeStrain v m) := isDev_smul _ (vecdToSymm_isDev _)

/-- **C94, stress.** The deviatoric stress returned for a cubic crystal is the one of the stored state. -/
theorem C94_stress (X : Ext) (M : Material n nH) (c11 c12 c44 : ℝ) (hel : M.el = .cubic c11 c12 c44) (inp : Inputs)
    (m m' : Mem nH n) (h : getResponseSngl X M inp m = .ok m') :
    devOfSvecP m'.stress = stateS M.el (inp.vr 1) m' := by
  have hs := C53_stress_from_state X M inp m m' h _ (Or.inl rfl)
  have hq := C07_step X M inp m m' h
  have hrot : IsRot (quatToTensor (histOf m').q) := (C03_unit_quaternion_is_rotation _ hq.1).1
  rw [hs]
  have h1 : ∀ A : T3, A.IsSymm → devOfSvecP (svecP A) = dev A := by
    intro A hA
    have e1 := hA.apply 0 1
    have e2 := hA.apply 0 2
    have e3 := hA.apply 1 2
    ext i j
    fin_cases i <;> fin_cases j <;> simp [devOfSvecP, svecP, dev, e1, e2, e3]
  set R := quatToTensor (histOf m').q
  set p := (M.eos.evalPT (inp.vr 1) (m.eInt - inp.vr 3 * m.stress 6)).1
  set ev := m.eInt - inp.vr 3 * m.stress 6
  have h2 : dev (latticeStress M.el (inp.vr 1) p ev (elasticStrain (inp.vr 1) (histOf m').e)) = latS M.el (inp.vr 1) m' := by
    have hd := vecdToSymm_isDev (histOf m').e
    have e1 := hd.1.apply 0 1
    have e2 := hd.1.apply 0 2
    have e3 := hd.1.apply 1 2
    have ht := hd.2
    rw [Matrix.trace_fin_three] at ht
    unfold latticeStress latS elasticStrain shapeStrain
    rw [hel]
    generalize vecdToSymm (histOf m').e = V at *
    generalize inp.vr 1 = v at *
    ext i j
    fin_cases i <;> fin_cases j <;>
      simp [dev, refStress, cubicStress, Elast.gVecd2, Matrix.trace_fin_three] <;> ring
  have h3 : (latticeStress M.el (inp.vr 1) p ev (elasticStrain (inp.vr 1) (histOf m').e)).IsSymm := by
    have hd := vecdToSymm_isDev (histOf m').e
    have e1 := hd.1.apply 0 1
    have e2 := hd.1.apply 0 2
    have e3 := hd.1.apply 1 2
    unfold latticeStress elasticStrain
    rw [hel]
    generalize vecdToSymm (histOf m').e = V at *
    generalize inp.vr 1 = v at *
    ext i j
    fin_cases i <;> fin_cases j <;> simp [dev, refStress, cubicStress, Elast.gVecd2, Matrix.trace_fin_three, e1, e2, e3] <;> ring
  have h4 : (R * latticeStress M.el (inp.vr 1) p ev (elasticStrain (inp.vr 1) (histOf m').e) * R.transpose).IsSymm := by
    unfold Matrix.IsSymm
    rw [Matrix.transpose_mul, Matrix.transpose_mul, Matrix.transpose_transpose, h3.eq, Matrix.mul_assoc]
  rw [h1 _ h4, dev_conj hrot.1 hrot.2.1, h2]
  rfl

/-- **C94, one step.** At constant volume the energy of a cubic crystal changes by the change of its stored elastic
    energy, plus the work of the mean stress on the slip, plus an effect of the turning of the lattice, minus the work on
    what the solver's tolerance leaves out of the imposed rate. -/
theorem C94_step (X : Ext) (M : Material n nH) (c11 c12 c44 : ℝ) (hel : M.el = .cubic c11 c12 c44)
    (Ms Ss : Fin n → Vec 3) (inp : Inputs) (hdt : 0 < inp.dt) {v : ℝ} (hv : 0 < v) (hv0 : inp.vr 0 = v)
    (hv1 : inp.vr 1 = v) (m m' : Mem nH n) (h : getResponseSngl X M inp m = .ok m')
    (hS : devOfSvecP m.stress = stateS M.el v m) :
    m'.eInt = m.eInt - inp.vr 3 * m.stress 6 + (storedE M.el (shapeStrain v m') - storedE M.el (shapeStrain v m))
      + meanWork v inp m m' (slipD Ms Ss m') + turnWork M.el v m m' - meanWork v inp m m' (lostD Ms Ss inp m m') := by
  have hrot : IsRot (quatToTensor (histOf m').q) := (C03_unit_quaternion_is_rotation _ (C07_step X M inp m m' h).1).1
  have hS' := C94_stress X M c11 c12 c44 hel inp m m' h
  rw [hv1] at hS'
  have hD : devOfSvecP inp.d = (1 / inp.dt) • (quatToTensor (histOf m').q * (shapeStrain v m' - shapeStrain v m)
        * (quatToTensor (histOf m').q).transpose) + slipD Ms Ss m' - lostD Ms Ss inp m m' := by
    unfold slipD lostD lostRate shapeStrain
    rw [hv1]
    set R := quatToTensor (histOf m').q
    have e : devOfSvecP inp.d = R * (R.transpose * devOfSvecP inp.d * R) * R.transpose := by
      calc devOfSvecP inp.d = (R * R.transpose) * devOfSvecP inp.d * (R * R.transpose) := by
            rw [hrot.1, one_mul, mul_one]
        _ = _ := by simp only [Matrix.mul_assoc]
    conv_lhs => rw [e]
    simp only [Matrix.mul_add, Matrix.add_mul, Matrix.mul_sub, Matrix.sub_mul, Matrix.mul_smul, Matrix.smul_mul]
    module
  rw [C23_energy X M inp m m' h, hv0, hv1]
  unfold meanWork turnWork
  set R := quatToTensor (histOf m').q
  set σ0 := devOfSvecP m.stress
  set σ1 := devOfSvecP m'.stress
  set E1 := shapeStrain v m' with hE1
  set E0 := shapeStrain v m with hE0
  have hd1 : IsDev E1 := shapeStrain_dev v m'
  have hd0 : IsDev E0 := shapeStrain_dev v m
  have ht : (E1 - E0).trace = 0 := by rw [Matrix.trace_sub, hd1.2, hd0.2, sub_zero]
  rw [hD]
  simp only [ddot_add_r, ddot_sub_r σ0 (_ + _), ddot_sub_r σ1 (_ + _), ddot_smul_r]
  rw [ddot_pull hrot σ0, ddot_pull hrot σ1]
  have e1 : R.transpose * σ1 * R = latS M.el v m' := by
    rw [hS']
    unfold stateS
    calc _ = (R.transpose * R) * latS M.el v m' * (R.transpose * R) := by simp only [Matrix.mul_assoc]; rfl
      _ = _ := by rw [hrot.2.1, one_mul, mul_one]
  rw [e1, ← hS, ddot_sub_l (R.transpose * σ0 * R)]
  have e2 : ddot (latS M.el v m') (E1 - E0) + ddot (latS M.el v m) (E1 - E0)
      = 1 / v * (2 * (storedE M.el E1 - storedE M.el E0)) := by
    unfold latS storedE
    rw [ddot_smul_l, ddot_smul_l, ddot_dev_left ht, ddot_dev_left ht, hel]
    simp only [refStress, ← hE1, ← hE0]
    have s1 := cubic_symm c11 c12 c44 E1 E0
    have c : ∀ A B : T3, ddot A B = ddot B A := fun A B => by simp [ddot, mul_comm]
    rw [ddot_sub_r, ddot_sub_r, c _ E1, c _ E0, c _ E1, c _ E0, s1]
    ring
  generalize ddot (latS M.el v m') (E1 - E0) = a1 at *
  generalize ddot (latS M.el v m) (E1 - E0) = a0 at *
  generalize ddot (R.transpose * σ0 * R) (E1 - E0) = b0 at *
  have e3 : storedE M.el E1 - storedE M.el E0 = v / 2 * (a1 + a0) := by rw [e2]; field_simp
  rw [e3]
  field_simp
  ring

/-- **C94, sizes.** The effect of the turning is of second order: at most volume times turning of the lattice times stress
    times change of the elastic strain, and nothing if the orientation is unchanged. -/
theorem C94_turn (el : Elast) {v : ℝ} (hv : 0 < v) (m m' : Mem nH n) (h0 : dot (histOf m).q (histOf m).q = 1)
    (h1 : dot (histOf m').q (histOf m').q = 1) :
    |turnWork el v m m'| ≤ v * frob (quatToTensor (histOf m').q - quatToTensor (histOf m).q) * frob (latS el v m)
      * frob (shapeStrain v m' - shapeStrain v m) := by
  have r0 := (C03_unit_quaternion_is_rotation _ h0).1
  have r1 := (C03_unit_quaternion_is_rotation _ h1).1
  unfold turnWork stateS
  generalize latS el v m = L
  generalize shapeStrain v m' - shapeStrain v m = E
  set R := quatToTensor (histOf m').q
  set Q := quatToTensor (histOf m).q
  have e : R.transpose * (Q * L * Q.transpose) * R - L = R.transpose * (Q * L * Q.transpose - R * L * R.transpose) * R := by
    rw [Matrix.mul_sub, Matrix.sub_mul]
    congr 1
    calc L = (R.transpose * R) * L * (R.transpose * R) := by rw [r1.2.1, one_mul, mul_one]
      _ = _ := by simp only [Matrix.mul_assoc]
  have e2 : frob (R.transpose * (Q * L * Q.transpose - R * L * R.transpose) * R)
      = frob (Q * L * Q.transpose - R * L * R.transpose) := by
    have h2 : R.transpose.transpose * R.transpose = 1 := by rw [Matrix.transpose_transpose]; exact r1.1
    unfold frob
    have := ddot_conj h2 (Q * L * Q.transpose - R * L * R.transpose) (Q * L * Q.transpose - R * L * R.transpose)
    rw [Matrix.transpose_transpose] at this
    rw [this]
  rw [abs_mul, abs_of_pos (by positivity), e]
  have h3 := ddot_le (R.transpose * (Q * L * Q.transpose - R * L * R.transpose) * R) E
  rw [e2] at h3
  have h4 := frob_conj_sub (T := L) r0 r1
  have h5 : frob (Q - R) = frob (R - Q) := by
    unfold frob; congr 1; simp [ddot, Fin.sum_univ_three]; ring
  rw [h5] at h4
  have hE : 0 ≤ frob E := Real.sqrt_nonneg _
  calc v / 2 * |_| ≤ v / 2 * (2 * frob (R - Q) * frob L * frob E) :=
        mul_le_mul_of_nonneg_left (h3.trans (mul_le_mul_of_nonneg_right h4 hE)) (by positivity)
    _ = _ := by ring

/-- **C94, heat.** The work on the slip that enters the energy differs from the dissipation at the end of the step by at
    most half the time step times volume times change of the stress times rate of slip. -/
theorem C94_heat {v : ℝ} (hv : 0 < v) (inp : Inputs) (hdt : 0 < inp.dt) (m m' : Mem nH n) (D : T3) :
    |meanWork v inp m m' D - inp.dt * v * ddot (devOfSvecP m'.stress) D|
      ≤ inp.dt * v / 2 * frob (devOfSvecP m.stress - devOfSvecP m'.stress) * frob D := by
  have e : meanWork v inp m m' D - inp.dt * v * ddot (devOfSvecP m'.stress) D
      = inp.dt * v / 2 * ddot (devOfSvecP m.stress - devOfSvecP m'.stress) D := by
    unfold meanWork
    rw [ddot_sub_l]; ring
  rw [e, abs_mul, abs_of_pos (by positivity), mul_assoc]
  exact mul_le_mul_of_nonneg_left (ddot_le _ _) (by positivity)

/-- **C94, tolerance.** The work on the part of the imposed rate that the solver leaves out is at most the time step times
    the volume times the mean of old and new stress times tolerance times the rate it is measured against. -/
theorem C94_lost (X : Ext) (hX : X.solver.Sound) (M : Material n nH) (Ms Ss : Fin n → Vec 3)
    (hgeom : M.geom = slipPQ Ms Ss) {v : ℝ} (hv : 0 < v) (inp : Inputs) (hdt : 0 < inp.dt)
    (hd : IsDev (devOfSvecP inp.d)) (m m' : Mem nH n) (h : getResponseSngl X M inp m = .ok m') (vals : M.kin.Vals)
    (sc : ℝ) (hvals : M.kin.getVals (Step.eosUpdate M inp m).press (Step.tK M inp m) (histOf m').h = .ok (vals, sc))
    (hA : 0 < M.kin.fixedRefRate vals) :
    |meanWork v inp m m' (lostD Ms Ss inp m m')| ≤ inp.dt * v
      * ((frob (devOfSvecP m.stress) + frob (devOfSvecP m'.stress)) / 2)
      * (inp.tol * lostScale (frob (devOfSvecP inp.d)) (M.kin.fixedRefRate vals) inp.dt) := by
  have hrot : IsRot (quatToTensor (histOf m').q) := (C03_unit_quaternion_is_rotation _ (C07_step X M inp m m' h).1).1
  have h1 := C92_accuracy X hX M Ms Ss hgeom inp hdt hd m m' h vals sc hvals hA
  have h2 : frob (lostD Ms Ss inp m m') = frob (lostRate Ms Ss inp m m') := by
    unfold frob lostD
    rw [ddot_conj hrot.2.1]
  rw [← h2] at h1
  have h3 := ddot_le (devOfSvecP m.stress) (lostD Ms Ss inp m m')
  have h4 := ddot_le (devOfSvecP m'.stress) (lostD Ms Ss inp m m')
  have h5 := abs_add_le (ddot (devOfSvecP m.stress) (lostD Ms Ss inp m m'))
    (ddot (devOfSvecP m'.stress) (lostD Ms Ss inp m m'))
  have f1 : 0 ≤ frob (devOfSvecP m.stress) := Real.sqrt_nonneg _
  have f2 : 0 ≤ frob (devOfSvecP m'.stress) := Real.sqrt_nonneg _
  unfold meanWork
  rw [abs_mul, abs_of_pos (by positivity), abs_div, abs_of_pos (by norm_num : (0 : ℝ) < 2), mul_assoc (inp.dt * v)]
  refine mul_le_mul_of_nonneg_left ?_ (by positivity)
  have h6 := mul_le_mul_of_nonneg_left h1 (add_nonneg f1 f2)
  linarith

/-- energy, stress and volume are handed on; the volume stays `v` and the first stress belongs to the first state -/
structure AtVolume {M : Material n nH} {N : ℕ} (t : Trajectory M N) (v : ℝ) : Prop where
  energy : ∀ k, k + 1 < N → (t.m (k + 1)).eInt = (t.m' k).eInt
  stress : ∀ k, k + 1 < N → (t.m (k + 1)).stress = (t.m' k).stress
  v0 : ∀ k < N, (t.inp k).vr 0 = v
  v1 : ∀ k < N, (t.inp k).vr 1 = v
  dv : ∀ k < N, (t.inp k).vr 3 = 0
  dt : ∀ k < N, 0 < (t.inp k).dt
  first : devOfSvecP (t.m 0).stress = stateS M.el v (t.m 0)

/-- **C94, history.** Over any number of steps at constant volume: the energy is the first one, plus the change of the
    stored elastic energy, plus the sum of the works on the slip and the corrections of every step. -/
theorem C94_history {M : Material n nH} {c11 c12 c44 : ℝ} (hel : M.el = .cubic c11 c12 c44) (Ms Ss : Fin n → Vec 3)
    {N : ℕ} (t : Trajectory M N) {v : ℝ} (hv : 0 < v) (ht : AtVolume t v) (k : ℕ) (hk : k < N) :
    (t.m' k).eInt = (t.m 0).eInt + (storedE M.el (shapeStrain v (t.m' k)) - storedE M.el (shapeStrain v (t.m 0)))
      + ∑ j ∈ Finset.range (k + 1), (meanWork v (t.inp j) (t.m j) (t.m' j) (slipD Ms Ss (t.m' j))
        + turnWork M.el v (t.m j) (t.m' j)
        - meanWork v (t.inp j) (t.m j) (t.m' j) (lostD Ms Ss (t.inp j) (t.m j) (t.m' j))) := by
  have hh : ∀ j, j + 1 < N → histOf (t.m (j + 1)) = histOf (t.m' j) := fun j hj => by unfold histOf; rw [t.link j hj]
  have hst : ∀ j < N, devOfSvecP (t.m j).stress = stateS M.el v (t.m j) := by
    intro j hj
    cases j with
    | zero => exact ht.first
    | succ j =>
      have := C94_stress _ M c11 c12 c44 hel _ _ _ (t.ok j (by omega))
      rw [ht.v1 j (by omega)] at this
      rw [ht.stress j hj, this]
      unfold stateS latS shapeStrain
      rw [hh j hj]
  have hs := fun j (hj : j < N) => C94_step _ M c11 c12 c44 hel Ms Ss _ (ht.dt j hj) hv (ht.v0 j hj) (ht.v1 j hj) _ _
    (t.ok j hj) (hst j hj)
  induction k with
  | zero => rw [hs 0 hk, ht.dv 0 hk]; simp; ring
  | succ k ih =>
    have e : storedE M.el (shapeStrain v (t.m (k + 1))) = storedE M.el (shapeStrain v (t.m' k)) := by
      unfold shapeStrain; rw [hh k hk]
    rw [hs _ hk, ht.dv _ hk, ht.energy k hk, ih (by omega), Finset.sum_range_succ _ (k + 1), e]
    ring

/-- **C94, elastic loading gives its energy back.** Without slip and turning of the lattice, for any number of steps at
    constant volume, the energy changes by the stored elastic energy, up to the tolerance of the solver; a closed cycle
    of the elastic strain gives everything back. -/
theorem C94_elastic {M : Material n nH} {c11 c12 c44 : ℝ} (hel : M.el = .cubic c11 c12 c44) (Ms Ss : Fin n → Vec 3)
    (hgeom : M.geom = slipPQ Ms Ss) {N : ℕ} (t : Trajectory M N) (hX : ∀ k < N, (t.X k).solver.Sound) {v : ℝ}
    (hv : 0 < v) (ht : AtVolume t v) (hd : ∀ k < N, IsDev (devOfSvecP (t.inp k).d))
    (hg : ∀ k < N, (histOf (t.m' k)).gdot = 0) (hq : ∀ k < N, (histOf (t.m' k)).q = (histOf (t.m k)).q) (A : ℝ)
    (hA : ∀ k < N, ∀ vals sc, M.kin.getVals (Step.eosUpdate M (t.inp k) (t.m k)).press
      (Step.tK M (t.inp k) (t.m k)) (histOf (t.m' k)).h = .ok (vals, sc) →
      0 < M.kin.fixedRefRate vals ∧ M.kin.fixedRefRate vals ≤ A) (k : ℕ) (hk : k < N) :
    |(t.m' k).eInt - (t.m 0).eInt - (storedE M.el (shapeStrain v (t.m' k)) - storedE M.el (shapeStrain v (t.m 0)))|
      ≤ ∑ j ∈ Finset.range (k + 1), (t.inp j).dt * v
        * ((frob (devOfSvecP (t.m j).stress) + frob (devOfSvecP (t.m' j).stress)) / 2)
        * |(t.inp j).tol| * (A + frob (devOfSvecP (t.inp j).d) + 1 / 10 ^ 6 / (t.inp j).dt) := by
  have e : (t.m' k).eInt - (t.m 0).eInt - (storedE M.el (shapeStrain v (t.m' k)) - storedE M.el (shapeStrain v (t.m 0)))
      = ∑ j ∈ Finset.range (k + 1), -meanWork v (t.inp j) (t.m j) (t.m' j) (lostD Ms Ss (t.inp j) (t.m j) (t.m' j)) := by
    rw [C94_history hel Ms Ss t hv ht k hk]
    have : ∀ j ∈ Finset.range (k + 1), (meanWork v (t.inp j) (t.m j) (t.m' j) (slipD Ms Ss (t.m' j))
        + turnWork M.el v (t.m j) (t.m' j)
        - meanWork v (t.inp j) (t.m j) (t.m' j) (lostD Ms Ss (t.inp j) (t.m j) (t.m' j)))
        = -meanWork v (t.inp j) (t.m j) (t.m' j) (lostD Ms Ss (t.inp j) (t.m j) (t.m' j)) := by
      intro j hj
      have hj' : j < N := by have := Finset.mem_range.1 hj; omega
      have h1 : slipD Ms Ss (t.m' j) = 0 := by
        unfold slipD
        rw [hg j hj']
        have : slipGrad (0 : Vec n) Ss Ms = 0 := by simp [slipGrad]
        rw [this]
        simp [sym, dev]
      have h2 : turnWork M.el v (t.m j) (t.m' j) = 0 := by
        have hrot : IsRot (quatToTensor (histOf (t.m' j)).q) :=
          (C03_unit_quaternion_is_rotation _ (C07_step _ M _ _ _ (t.ok j hj')).1).1
        unfold turnWork stateS
        rw [← hq j hj']
        set R := quatToTensor (histOf (t.m' j)).q
        have : R.transpose * (R * latS M.el v (t.m j) * R.transpose) * R = latS M.el v (t.m j) := by
          calc _ = (R.transpose * R) * latS M.el v (t.m j) * (R.transpose * R) := by simp only [Matrix.mul_assoc]
            _ = _ := by rw [hrot.2.1, one_mul, mul_one]
        rw [this, sub_self]
        simp [ddot]
      rw [h1, h2]
      simp [meanWork, ddot]
    rw [Finset.sum_congr rfl this]
    ring
  rw [e]
  refine (Finset.abs_sum_le_sum_abs _ _).trans (Finset.sum_le_sum fun j hj => ?_)
  have hj' : j < N := by have := Finset.mem_range.1 hj; omega
  obtain ⟨s⟩ := getResponseSngl_ok (t.ok j hj')
  have hh : (histOf (t.m' j)).h = s.hU := by rw [OkStep.hist_eq s]; rfl
  have hV := s.hV
  rw [← hh] at hV
  obtain ⟨ha, hb⟩ := hA j hj' _ _ hV
  have hdt := ht.dt j hj'
  have hl := C94_lost _ (hX j hj') M Ms Ss hgeom hv _ hdt (hd j hj') _ _ (t.ok j hj') _ _ hV ha
  rw [abs_neg]
  refine hl.trans ?_
  have f1 : 0 ≤ frob (devOfSvecP (t.m j).stress) := Real.sqrt_nonneg _
  have f2 : 0 ≤ frob (devOfSvecP (t.m' j).stress) := Real.sqrt_nonneg _
  have f3 : 0 ≤ frob (devOfSvecP (t.inp j).d) := Real.sqrt_nonneg _
  have f4 : 0 ≤ 1 / 10 ^ 6 / (t.inp j).dt := by positivity
  have hs : lostScale (frob (devOfSvecP (t.inp j).d)) (M.kin.fixedRefRate s.v) (t.inp j).dt
      ≤ A + frob (devOfSvecP (t.inp j).d) + 1 / 10 ^ 6 / (t.inp j).dt := by
    unfold lostScale
    split_ifs
    · linarith
    · exact max_le (by linarith) (by linarith)
  have hs0 : 0 ≤ lostScale (frob (devOfSvecP (t.inp j).d)) (M.kin.fixedRefRate s.v) (t.inp j).dt := by
    unfold lostScale
    split_ifs
    · exact ha.le
    · exact f3.trans (le_max_left _ _)
  rw [mul_assoc (_ * _ * _) |(t.inp j).tol|]
  refine mul_le_mul_of_nonneg_left ?_ (by positivity)
  calc _ ≤ |(t.inp j).tol| * lostScale (frob (devOfSvecP (t.inp j).d)) (M.kin.fixedRefRate s.v) (t.inp j).dt :=
        mul_le_mul_of_nonneg_right (le_abs_self _) hs0
    _ ≤ _ := mul_le_mul_of_nonneg_left hs (abs_nonneg _)

end Ecm.Props
