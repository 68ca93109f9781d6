/- Property theorems C66 (the two moduli returned with every update) and the energy balance of C23 over
   any history. -/
import Verif.Props.Response
import Verif.Props.Eos
import Verif.Lemmas.LongRun

namespace Ecm.Props
open Ecm Spec

variable {n nH : ℕ}

/-! ### C66 -/

/-- symmetrised unit tensor -/
noncomputable def unitSym (i j : Fin 3) : T3 := fun a b =>
  ((if a = i ∧ b = j then 1 else 0) + (if a = j ∧ b = i then 1 else 0)) / 2

/-- average of the shear modulus over all orientations of the crystal at equal strain: a fifth of the
    trace of the deviatoric part of the stiffness over two -/
noncomputable def voigtShear (C : T3 → T3) : ℝ :=
  (3 * ∑ i, ∑ j, ddot (unitSym i j) (C (unitSym i j))
    - ∑ i, ∑ j, ddot (unitSym i i) (C (unitSym j j))) / 30

/-- **C66, bulk.** The first returned modulus is the derivative of the pressure by the logarithm of the
    volume, with its sign changed, along the energy path of the step, with a floor of 1e-5 reference
    moduli. -/
theorem C66_bulk (X : Ext) (M : Material n nH) (inp : Inputs) (m m' : Mem nH n)
    (h : getResponseSngl X M inp m = .ok m') :
    ∃ dp, HasDerivAt (fun v => (M.eos.evalPT v
        (m.eInt - inp.vr 3 * m.stress 6 - m.stress 6 * (v - inp.vr 1))).1) dp (inp.vr 1) ∧
      m'.sdd 0 = max (1 / 10 ^ 5 * M.eos.bulkMod) (-inp.vr 1 * dp) := by
  obtain ⟨s⟩ := getResponseSngl_ok h
  have he : HasDerivAt (fun v => m.eInt - inp.vr 3 * m.stress 6 - m.stress 6 * (v - inp.vr 1))
      (-(m.stress 6)) (inp.vr 1) := by
    have := (((hasDerivAt_id (inp.vr 1)).sub_const (inp.vr 1)).const_mul (m.stress 6)).const_sub
      (m.eInt - inp.vr 3 * m.stress 6)
    simpa using this
  obtain ⟨dp, h1, h2⟩ := C21_bulk_isentropic M.eos (inp.vr 1) (m.stress 6) s.hv _ he
  refine ⟨dp, h1, ?_⟩
  rw [s.hsdd]
  simp only [sub_self, mul_zero, sub_zero] at h2
  rw [h2]
  simp only [Step.eosUpdate, Eos.updateSimple, Matrix.cons_val_zero]
  norm_num

/-- **C66, shear.** The second returned modulus depends on the material only; it is the orientation
    average of the shear modulus for the hexagonal class, and twice this average for the cubic class. -/
theorem C66_shear (X : Ext) (M : Material n nH) (inp : Inputs) (m m' : Mem nH n)
    (h : getResponseSngl X M inp m = .ok m') :
    (∀ c11 c12 c44, M.el = .cubic c11 c12 c44 → m'.sdd 1 = 2 * voigtShear (refStress M.el)) ∧
    (∀ c11 c12 c13 c33 c44 g, M.el = .hexag c11 c12 c13 c33 c44 g →
      m'.sdd 1 = voigtShear (refStress M.el)) := by
  obtain ⟨s⟩ := getResponseSngl_ok h
  have hg : m'.sdd 1 = M.el.kGmod := by
    rw [s.hsdd]
    have := s.hg
    unfold Elast.getGmod at this
    split_ifs at this
    rw [Out.ok.inj this]; rfl
  constructor
  · intro c11 c12 c44 he
    rw [hg, he]
    simp [Elast.kGmod, voigtShear, unitSym, refStress, cubicStress, ddot, Fin.sum_univ_three]
    ring
  · intro c11 c12 c13 c33 c44 g he
    rw [hg, he]
    simp [Elast.kGmod, voigtShear, unitSym, refStress, hexagStress, ddot, Fin.sum_univ_three,
      vecsssum, Elast.kDiag, Fin.sum_univ_five]
    ring

/-- **C66, usable.** Both returned moduli are positive when the reference bulk modulus is. -/
theorem C66_positive (X : Ext) (M : Material n nH) (inp : Inputs) (m m' : Mem nH n)
    (hK : 0 < M.eos.bulkMod) (h : getResponseSngl X M inp m = .ok m') :
    0 < m'.sdd 0 ∧ 0 < m'.sdd 1 := by
  obtain ⟨dp, -, h0⟩ := C66_bulk X M inp m m' h
  obtain ⟨s⟩ := getResponseSngl_ok h
  refine ⟨?_, ?_⟩
  · rw [h0]
    exact lt_of_lt_of_le (by positivity) (le_max_left _ _)
  · rw [s.hsdd]
    have := s.hg
    unfold Elast.getGmod at this
    split_ifs at this with hle
    rw [Out.ok.inj this] at hle
    exact not_le.1 hle

/-! ### C23 over a history -/

/-- work per reference volume on the point in step `k`: old pressure times volume change, and mean
    deviatoric stress power times mean volume times time step -/
noncomputable def stepWork {M : Material n nH} {N : ℕ} (t : Trajectory M N) (k : ℕ) : ℝ :=
  -((t.inp k).vr 3 * (t.m k).stress 6) + (t.inp k).dt * (((t.inp k).vr 0 + (t.inp k).vr 1) / 2)
    * ((ddot (devOfSvecP (t.m k).stress) (devOfSvecP (t.inp k).d)
      + ddot (devOfSvecP (t.m' k).stress) (devOfSvecP (t.inp k).d)) / 2)

/-- **C23, history.** Over any number of steps, with energies handed from step to step, the change of the
    internal energy is the work done. -/
theorem C23_history {M : Material n nH} {N : ℕ} (t : Trajectory M N)
    (hE : ∀ k, k + 1 < N → (t.m (k + 1)).eInt = (t.m' k).eInt) (K : ℕ) (hK : K < N) :
    (t.m' K).eInt = (t.m 0).eInt + ∑ k ∈ Finset.range (K + 1), stepWork t k := by
  have hs : ∀ k < N, (t.m' k).eInt = (t.m k).eInt + stepWork t k := by
    intro k hk
    rw [C23_energy _ M _ _ _ (t.ok k hk)]
    unfold stepWork; ring
  induction K with
  | zero => rw [hs 0 hK]; simp
  | succ K ih =>
    rw [hs _ hK, hE K hK, ih (by omega), Finset.sum_range_succ _ (K + 1)]
    ring

/-- hypotheses of the theorems of this file: the example step, and a history of a million steps -/
example (e : Vec 5) : 0 < (exMat exEl).eos.bulkMod ∧
    ∃ m', getResponseSngl exExt (exMat exEl) (exInp exEl e) (exMem e none) = .ok m' :=
  ⟨by norm_num [exMat], ex_ok exEl exEl_pos e none⟩

example (e : Vec 5) : (∀ k, k + 1 < 1000000 →
    ((runTraj e 1000000).m (k + 1)).eInt = ((runTraj e 1000000).m' k).eInt) ∧ 999999 < 1000000 :=
  ⟨fun _ _ => rfl, by norm_num⟩

/-- histories of any length also meet the hypotheses of `C07_history`, `C32_history` and
    `C62_voce_history`: unit time steps, strengths between one and two, elastic strain kept -/
example (e : Vec 5) (N : ℕ) (k : ℕ) : 0 < ((runTraj e N).inp k).dt ∧
    1 ≤ (histOf ((runTraj e N).m k)).h 0 ∧ (histOf ((runTraj e N).m k)).h 0 ≤ 2 ∧
    (histOf ((runTraj e N).m k)).e = e := by
  refine ⟨?_, (runState e k).2.h, (runState e k).2.h2, ?_⟩
  · show 0 < (runNext (runState e k)).1.dt
    rw [(runNext_spec _).1]; norm_num
  · show (histOf (runState e k).1).e = e
    induction k with
    | zero => show (histOf (exMem e none)).e = e; unfold histOf; rw [ex_ofArray]; rfl
    | succ k ih => exact ((runNext_spec (runState e k)).2.2.2.1).trans ih

end Ecm.Props
