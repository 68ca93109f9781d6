/- Property theorems C84: the heat of a history is bounded by the work, so that crystals with dislocation kinetics stay in
   the warm; the example program with the model `mts` reaches its end (src/ecmech/ECMech_evptn.h:1059-1068, 1233-1241,
   miniapp/orientation_evolution.cxx:436-549).

   The energy of a step without volume change grows by the work of the stress on the deformation (C23); the stress is bounded
   by the elastic strain, and the elastic strain by what was supplied (C69).  With C83: if the window of temperatures
   is wide enough for this heat, no step of the history can fail. -/
import Verif.Props.Warm

namespace Ecm.Props
open Ecm Spec KMBalD

variable {n nH nV : ℕ} [NeZero nV]

/-! ### Stress and work -/

theorem ddot_le (A B : T3) : |ddot A B| ≤ frob A * frob B := by
  have h : (ddot A B) ^ 2 ≤ ddot A A * ddot B B := by
    have := Finset.sum_mul_sq_le_sq_mul_sq (Finset.univ : Finset (Fin 3 × Fin 3)) (fun p => A p.1 p.2) (fun p => B p.1 p.2)
    simp only [Fintype.sum_prod_type] at this
    unfold ddot
    simpa only [sq] using this
  have h0 : 0 ≤ ddot A A := by
    unfold ddot
    exact Finset.sum_nonneg fun i _ => Finset.sum_nonneg fun j _ => mul_self_nonneg _
  unfold frob
  rw [← Real.sqrt_mul h0]
  exact Real.abs_le_sqrt h

/-- **C84, deviator.** The stress written by a step has no trace (the pressure is kept apart). -/
theorem C84_deviator (X : Ext) (M : Material n nH) (inp : Inputs) (m m' : Mem nH n)
    (h : getResponseSngl X M inp m = .ok m') : IsDev (devOfSvecP m'.stress) := by
  obtain ⟨s⟩ := getResponseSngl_ok h
  have h1 : m'.stress 0 + m'.stress 1 + m'.stress 2 = 0 := by
    rw [s.hst]
    simp [Step.stressOf, vecdsToSvecP]
    sqr_ring
  rw [isDev_iff]
  simp [devOfSvecP]
  linarith

/-- **C84, stress.** The deviatoric stress after a step is bounded by the elastic strain. -/
theorem C84_stress (X : Ext) (M : Material n nH) (c11 c12 c44 : ℝ) (hel : M.el = .cubic c11 c12 c44)
    (hc : c12 < c11 ∧ 0 < c44) (inp : Inputs) (m m' : Mem nH n) (h : getResponseSngl X M inp m = .ok m') :
    frob (devOfSvecP m'.stress) * (inp.vr 1 * (inp.vr 1) ^ (1 / 3 : ℝ))
      ≤ Real.sqrt (stiff c11 c12 c44) * energyNorm M.el (vecdToSymm (histOf m').e) := by
  obtain ⟨s⟩ := getResponseSngl_ok h
  have hPel : s.P.el = .cubic c11 c12 c44 := by rw [s.hP]; exact hel
  have hPv : s.P.detV = inp.vr 1 := by rw [s.hP]
  have he : (histOf m').e = s.P.eF (Step.solve X inp s.P).x := by rw [OkStep.hist_eq s]; rfl
  have hcn : qn s.P.cN = 1 := by rw [s.hP]; exact qn_quatN s.hq
  have hdev := C84_deviator X M inp m m' h
  have hkp : ∀ k, 0 < (Elast.cubic c11 c12 c44).kDiag k := ((C47_stability_constants c11 c12 0 0 c44 0).1).2 hc
  have hκ : ∀ k, (Elast.cubic c11 c12 c44).kDiag k ≤ stiff c11 c12 c44 := by
    intro k
    unfold stiff
    fin_cases k <;> simp [Elast.kDiag]
  rw [frob_eq hdev, energyNorm_eq, he, s.hst, hel, ← hPv]
  set x := (Step.solve X inp s.P).x
  set e := s.P.eF x
  have hR := isRot_of_unit (s.P.qn_cQuat hcn x)
  set q := s.P.cQuat x
  have h1 : svecToVecd (Step.stressOf s.P e q)
      = vecsVMa (getRotMatVecd (quatToTensor q)) (fun i : Fin 5 => s.P.elastNEtoC e i.castSucc) := by
    funext i
    rw [show Step.stressOf s.P e q = vecdsToSvecP _ from rfl, (C01_internal_round_trip _).2.2.2.2.1]
    fin_cases i <;> rfl
  have hrot : ∀ v, vecNorm (vecsVMa (getRotMatVecd (quatToTensor q)) v) = vecNorm v := by
    intro v
    have := vecNorm_vecsVMTa_rot (R := (quatToTensor q).transpose) (by
      rw [Matrix.transpose_transpose]; exact mul_eq_one_comm.1 hR.1) v
    rw [getRotMatVecd_transpose] at this
    exact this
  rw [h1, hrot]
  have h2 : ∀ i : Fin 5, s.P.elastNEtoC e i.castSucc = s.P.detVRi * (s.P.aVri * ((Elast.cubic c11 c12 c44).kDiag i * e i)) := by
    intro i
    show s.P.detVRi * s.P.elastNEtoT e i.castSucc = _
    have h3 := s.P.elastNEtoT_castSucc e i
    have h4 := s.P.elastNEtoT_castSucc 0 i
    rw [C72_cubic s.P c11 c12 c44 hPel] at h4
    rw [h3, hPel]
    simp only [Pi.zero_apply, mul_zero, zero_add] at h4
    rw [← h4]
    ring
  have hv : 0 < s.P.detV := hPv ▸ s.hv
  have ha := s.P.aV_pos hv
  have h5 : vecNorm (fun i : Fin 5 => s.P.elastNEtoC e i.castSucc) * (s.P.detV * s.P.aV)
      = vecNorm fun i => (Elast.cubic c11 c12 c44).kDiag i * e i := by
    have h6 : (fun i => (Elast.cubic c11 c12 c44).kDiag i * e i)
        = fun i : Fin 5 => (s.P.detV * s.P.aV) * s.P.elastNEtoC e i.castSucc := by
      funext i
      rw [h2 i]
      unfold Updst.detVRi Updst.aVri
      field_simp
    rw [h6, mul_comm]
    have h7 : 0 ≤ s.P.detV * s.P.aV := (mul_pos hv ha).le
    rw [← sq_eq_sq₀ (mul_nonneg h7 (vecNorm_nonneg _)) (vecNorm_nonneg _), mul_pow, vecNorm_sq, vecNorm_sq, Finset.mul_sum]
    exact Finset.sum_congr rfl fun i _ => by ring
  have h8 : s.P.detV * s.P.detV ^ (1 / 3 : ℝ) = s.P.detV * s.P.aV := rfl
  rw [h8, h5]
  have hκ0 : 0 ≤ stiff c11 c12 c44 := (hkp 0).le.trans (hκ 0)
  unfold vecNorm wNorm
  rw [← Real.sqrt_mul hκ0]
  refine Real.sqrt_le_sqrt ?_
  rw [Finset.mul_sum]
  refine Finset.sum_le_sum fun i _ => ?_
  have := mul_le_mul_of_nonneg_right (hκ i) (mul_nonneg (hkp i).le (sq_nonneg (e i)))
  nlinarith

/-- **C84, heat.** In a step without volume change the energy changes by no more than the imposed strain times the mean of
    the old and the new stress. -/
theorem C84_heat (X : Ext) (M : Material n nH) (inp : Inputs) (hdt : 0 ≤ inp.dt)
    (hv : inp.vr 0 = 1 ∧ inp.vr 1 = 1 ∧ inp.vr 3 = 0) (m m' : Mem nH n) (h : getResponseSngl X M inp m = .ok m') :
    |m'.eInt - m.eInt| ≤ inp.dt * frob (devOfSvecP inp.d)
      * ((frob (devOfSvecP m.stress) + frob (devOfSvecP m'.stress)) / 2) := by
  have h1 := C23_energy X M inp m m' h
  rw [hv.1, hv.2.1, hv.2.2] at h1
  have h2 := ddot_le (devOfSvecP m.stress) (devOfSvecP inp.d)
  have h3 := ddot_le (devOfSvecP m'.stress) (devOfSvecP inp.d)
  have h4 : m'.eInt - m.eInt = inp.dt * ((ddot (devOfSvecP m.stress) (devOfSvecP inp.d)
        + ddot (devOfSvecP m'.stress) (devOfSvecP inp.d)) / 2) := by rw [h1]; ring
  rw [h4, abs_mul, abs_of_nonneg hdt, mul_assoc]
  refine mul_le_mul_of_nonneg_left ?_ hdt
  rw [abs_div, abs_of_pos (by norm_num : (0 : ℝ) < 2)]
  have := abs_add_le (ddot (devOfSvecP m.stress) (devOfSvecP inp.d)) (ddot (devOfSvecP m'.stress) (devOfSvecP inp.d))
  linarith

/-! ### One step -/

/-- a state of a cubic crystal with dislocation kinetics, with bounds on the elastic strain and the stress -/
structure KMHot (k : KMBalD nV) (el : Elast) (κ B hi E : ℝ) (mem : Mem 1 n) : Prop where
  band : KMBand k B hi (histOf mem)
  strain : energyNorm el (vecdToSymm (histOf mem).e) ≤ E
  stress : frob (devOfSvecP mem.stress) ≤ Real.sqrt κ * E

/-- the largest reference rate of the range -/
noncomputable def topRate (k : KMBalD nV) (lo hi : ℝ) : ℝ := kmGamW k lo + kmGamR k hi

/-- what a step without volume change asks of its inputs, besides C83 -/
structure Isochoric (inp : Inputs) : Prop where
  old : inp.vr 0 = 1
  new : inp.vr 1 = 1
  change : inp.vr 3 = 0
  dev : IsDev (devOfSvecP inp.d)

omit [NeZero nV] in
theorem supply_nonneg {k : KMBalD nV} {κ lo hi dt0 : ℝ} (hk : 0 ≤ topRate k lo hi) (hr : 0 ≤ kmGamR k lo) {inp : Inputs}
    (hi' : KMLoads n k lo dt0 inp) : 0 ≤ stepSupply κ (topRate k lo hi) inp := by
  have ht : 0 ≤ inp.tol := by
    refine le_trans ?_ hi'.tol
    have : 0 ≤ len inp.w / kmGamR k lo := div_nonneg (Real.sqrt_nonneg _) hr
    positivity
  have hf : 0 ≤ frob (devOfSvecP inp.d) := Real.sqrt_nonneg _
  have := hi'.dt
  unfold stepSupply
  refine mul_nonneg (mul_nonneg this.le (Real.rpow_nonneg hi'.vol.le _)) (mul_nonneg (Real.sqrt_nonneg _) ?_)
  positivity

theorem topRate_nonneg {k : KMBalD nV} {T1 T2 lo hi : ℝ} (hk : WarmRange k T1 T2 lo hi) (hl : lo ≤ hi) :
    0 ≤ topRate k lo hi :=
  add_nonneg (div_nonneg (hk.par 0).w.le (Real.sqrt_nonneg _)) (mul_nonneg (hk.par 0).r.le (hk.dens.le.trans hl))

/-- **C84, one step.** A step without volume change at a temperature in the range succeeds; the strain grows by no more
    than what was supplied, the stress is bounded by the strain, the energy by the work. -/
theorem C84_step {M : Material n 1} {k : KMBalD nV} {S : Solver 1} (hS : Finds S) (hM : KMCrystal M k S)
    {c11 c12 c44 : ℝ} (hel : M.el = .cubic c11 c12 c44) (hc : c12 < c11 ∧ 0 < c44)
    {T1 T2 lo top hi dt0 : ℝ} (hk : WarmRange k T1 T2 lo hi) (hd : DensRange n k lo top hi dt0) {B E : ℝ}
    (hB : Real.log top ≤ B) (hBhi : B + densErr hi ≤ Real.log hi) (X : Ext) (hX : Finds X.solver) (inp : Inputs)
    (hi' : KMLoads n k lo dt0 inp) (hV : Isochoric inp) (mem : Mem 1 n)
    (hm : KMHot k M.el (stiff c11 c12 c44) B hi E mem)
    (hT1 : T1 ≤ Step.tK M inp mem) (hT2 : Step.tK M inp mem ≤ T2)
    (hL : mem.mtan = none ∨ ∀ A B, (X.lup A B).isSome) :
    ∃ mem', getResponseSngl X M inp mem = .ok mem' ∧
      KMHot k M.el (stiff c11 c12 c44) (B + densErr hi) hi (E + stepSupply (stiff c11 c12 c44) (topRate k lo hi) inp) mem' ∧
      |mem'.eInt - mem.eInt| ≤ inp.dt * frob (devOfSvecP inp.d)
        * (Real.sqrt (stiff c11 c12 c44) * (E + stepSupply (stiff c11 c12 c44) (topRate k lo hi) inp)) := by
  obtain ⟨mem', hok, hb, hlow⟩ := C83_step hS hM hk hd hB hBhi X hX inp hi' mem hm.band hT1 hT2 hL
  have hpar := hk.par 0
  have hhi0 : 0 < hi := (div_pos hd.hdnInit (by norm_num)).trans_le (hd.ftop.trans hd.top_le)
  have hhigh : (histOf mem').h 0 ≤ hi :=
    hb.dens.trans ((Real.exp_le_exp.2 hBhi).trans (Real.exp_log hhi0).le)
  have hsup : 0 ≤ stepSupply (stiff c11 c12 c44) (topRate k lo hi) inp :=
    supply_nonneg (topRate_nonneg hk (hlow.trans hhigh)) (mul_nonneg hpar.r.le hd.pos.le) hi'
  have hdis : DissipativeAt M.kin mem'.tkelv := by
    obtain ⟨s⟩ := getResponseSngl_ok hok
    rw [s.htk, hM.kin]
    exact C32_kmbald k S _ (hk.temp.trans_le hT1) hpar.w hpar.r hpar.D hpar.p (one_pos.trans_le hpar.q)
      fun j => (hk.par j).c.le
  have hstr : energyNorm M.el (vecdToSymm (histOf mem').e)
      ≤ E + stepSupply (stiff c11 c12 c44) (topRate k lo hi) inp := by
    have h1 := C69_step_at X hX.sound M c11 c12 c44 hel hc (topRate k lo hi) inp hi'.dt hV.dev mem mem' hok (by
      intro v sc hv
      obtain ⟨geom, kin, el, eos⟩ := M
      obtain ⟨-, -, hkin, -, -⟩ := hM
      simp only at hkin
      subst hkin
      obtain ⟨hp, -, -, -, -, -, -, hrate⟩ := C64_values k S n _ _ v sc hv
      show 0 < (k.kin S n).fixedRefRate v ∧ (k.kin S n).fixedRefRate v ≤ _
      rw [hrate]
      refine ⟨add_pos (div_pos hpar.w (Real.sqrt_pos.2 hp)) (mul_pos hpar.r hp), add_le_add ?_ ?_⟩
      · exact div_le_div_of_nonneg_left hpar.w.le (Real.sqrt_pos.2 hd.pos) (Real.sqrt_le_sqrt hlow)
      · exact mul_le_mul_of_nonneg_left hhigh hpar.r.le) hdis
    have h2 := hm.strain
    unfold stiff
    linarith
  have hst : frob (devOfSvecP mem'.stress) ≤ Real.sqrt (stiff c11 c12 c44)
      * (E + stepSupply (stiff c11 c12 c44) (topRate k lo hi) inp) := by
    have h1 := C84_stress X M c11 c12 c44 hel hc inp mem mem' hok
    rw [hV.new, Real.one_rpow, mul_one, mul_one] at h1
    exact h1.trans (mul_le_mul_of_nonneg_left hstr (Real.sqrt_nonneg _))
  refine ⟨mem', hok, ⟨hb, hstr, hst⟩, ?_⟩
  refine (C84_heat X M inp hi'.dt.le ⟨hV.old, hV.new, hV.change⟩ mem mem' hok).trans ?_
  refine mul_le_mul_of_nonneg_left ?_ (mul_nonneg hi'.dt.le (Real.sqrt_nonneg _))
  have h1 := hm.stress
  have h2 := mul_nonneg (Real.sqrt_nonneg (stiff c11 c12 c44)) hsup
  rw [mul_add] at hst ⊢
  linarith

/-! ### Histories -/

/-- the bound on the strain after `j` steps -/
noncomputable def strainAt (κ A E : ℝ) (inp : ℕ → Inputs) (j : ℕ) : ℝ :=
  E + ∑ i ∈ Finset.range j, stepSupply κ A (inp i)

/-- the bound on the work of `j` steps -/
noncomputable def workAt (κ A E : ℝ) (inp : ℕ → Inputs) (j : ℕ) : ℝ :=
  ∑ i ∈ Finset.range j, (inp i).dt * frob (devOfSvecP (inp i).d) * (Real.sqrt κ * strainAt κ A E inp (i + 1))

theorem tK_change (M : Material n nH) (inp : Inputs) (m : Mem nH n) (e0 w T1 T2 : ℝ) (h : |m.eInt - e0| ≤ w)
    (h1 : T1 + |1 / M.eos.cvav| * w ≤ (M.eos.evalPT 1 e0).2)
    (h2 : (M.eos.evalPT 1 e0).2 + |1 / M.eos.cvav| * w ≤ T2) :
    T1 ≤ Step.tK M inp m ∧ Step.tK M inp m ≤ T2 := by
  have hw : 0 ≤ w := (abs_nonneg _).trans h
  have hcw : 0 ≤ |1 / M.eos.cvav| * w := mul_nonneg (abs_nonneg _) hw
  have h3 : |(m.eInt - e0) * (1 / M.eos.cvav)| ≤ |1 / M.eos.cvav| * w := by
    rw [abs_mul, mul_comm]
    exact mul_le_mul_of_nonneg_left h (abs_nonneg _)
  obtain ⟨h4, h5⟩ := abs_le.1 h3
  unfold Step.tK
  unfold Eos.evalPT Eos.dtde0 at *
  simp only at *
  split_ifs at * <;> constructor <;> simp only at * <;> linarith

/-- **C84, histories.** Where the range of temperatures is wide enough for the work of the history, a cubic crystal with
    dislocation kinetics goes through all of it, at any deformation rates.  `next` is what the caller does to the
    memory between the steps; it keeps the history variables, the energy and the deviatoric stress. -/
theorem C84_history {M : Material n 1} {k : KMBalD nV} {S : Solver 1} (hS : Finds S) (hM : KMCrystal M k S)
    {c11 c12 c44 : ℝ} (hel : M.el = .cubic c11 c12 c44) (hc : c12 < c11 ∧ 0 < c44)
    {T1 T2 lo top hi dt0 : ℝ} (hk : WarmRange k T1 T2 lo hi) (hd : DensRange n k lo top hi dt0) {K : ℕ}
    (hK : Real.log top + K * densErr hi ≤ Real.log hi) (X : ℕ → Ext) (hX : ∀ j < K, Finds (X j).solver)
    (inp : ℕ → Inputs) (hi' : ∀ j < K, KMLoads n k lo dt0 (inp j)) (hV : ∀ j < K, Isochoric (inp j))
    (next : ℕ → Mem 1 n → Mem 1 n) (hnext : ∀ j m, (next j m).hist = m.hist ∧ (next j m).eInt = m.eInt ∧
      (IsDev (devOfSvecP m.stress) → devOfSvecP (next j m).stress = devOfSvecP m.stress)) (m0 : Mem 1 n)
    (hL : (m0.mtan = none ∧ ∀ j m, (next j m).mtan = none) ∨ ∀ j < K, ∀ A B, ((X j).lup A B).isSome) {E : ℝ}
    (hr : KMHot k M.el (stiff c11 c12 c44) (Real.log top) hi E m0)
    (hT1 : T1 + |1 / M.eos.cvav| * workAt (stiff c11 c12 c44) (topRate k lo hi) E inp K ≤ (M.eos.evalPT 1 m0.eInt).2)
    (hT2 : (M.eos.evalPT 1 m0.eInt).2 + |1 / M.eos.cvav| * workAt (stiff c11 c12 c44) (topRate k lo hi) E inp K ≤ T2) :
    ∃ t : Trajectory M K, t.X = X ∧ t.inp = inp ∧ t.m 0 = m0 ∧ (∀ j, t.m (j + 1) = next j (t.m' j)) ∧
      ∀ j < K, KMHot k M.el (stiff c11 c12 c44) (Real.log hi) hi
          (strainAt (stiff c11 c12 c44) (topRate k lo hi) E inp (j + 1)) (t.m' j) ∧
        |(t.m' j).eInt - m0.eInt| ≤ workAt (stiff c11 c12 c44) (topRate k lo hi) E inp (j + 1) := by
  let out : ℕ → Mem 1 n → Mem 1 n := fun j m =>
    match getResponseSngl (X j) M (inp j) m with
    | .ok m' => m'
    | _ => m
  let m : ℕ → Mem 1 n := fun j => Nat.rec m0 (fun j m => next j (out j m)) j
  have hδ := densErr_pos hi
  have hpar := hk.par 0
  set κ := stiff c11 c12 c44 with hκ
  set A := topRate k lo hi with hA
  have hlohi : lo ≤ hi := by
    have := hd.floor
    have := hd.ftop.trans hd.top_le
    linarith [hd.pos]
  have hsup : ∀ j < K, 0 ≤ stepSupply κ A (inp j) := fun j hj =>
    supply_nonneg (topRate_nonneg hk hlohi) (mul_nonneg hpar.r.le hd.pos.le) (hi' j hj)
  have hE0 : 0 ≤ E := (Real.sqrt_nonneg _).trans hr.strain
  have hstrain0 : ∀ j ≤ K, 0 ≤ strainAt κ A E inp j := fun j hj =>
    add_nonneg hE0 (Finset.sum_nonneg fun i hi => hsup i ((Finset.mem_range.1 hi).trans_le hj))
  have hterm : ∀ j < K, 0 ≤ (inp j).dt * frob (devOfSvecP (inp j).d) * (Real.sqrt κ * strainAt κ A E inp (j + 1)) :=
    fun j hj => mul_nonneg (mul_nonneg (hi' j hj).dt.le (Real.sqrt_nonneg _))
      (mul_nonneg (Real.sqrt_nonneg _) (hstrain0 _ hj))
  have hwork : ∀ j ≤ K, workAt κ A E inp j ≤ workAt κ A E inp K := by
    intro j hj
    refine Finset.sum_le_sum_of_subset_of_nonneg (fun i hi => ?_) fun i hi _ => hterm i (Finset.mem_range.1 hi)
    exact Finset.mem_range.2 ((Finset.mem_range.1 hi).trans_le hj)
  have hstep : ∀ j < K, KMHot k M.el κ (Real.log top + j * densErr hi) hi (strainAt κ A E inp j) (m j) →
      |(m j).eInt - m0.eInt| ≤ workAt κ A E inp j →
      ∃ m', getResponseSngl (X j) M (inp j) (m j) = .ok m' ∧
        KMHot k M.el κ (Real.log top + (j + 1 : ℕ) * densErr hi) hi (strainAt κ A E inp (j + 1)) m' ∧
        |m'.eInt - m0.eInt| ≤ workAt κ A E inp (j + 1) := by
    intro j hj hb he
    have hjR : (j : ℝ) + 1 ≤ K := by exact_mod_cast hj
    have h0 : 0 ≤ (j : ℝ) * densErr hi := mul_nonneg (Nat.cast_nonneg _) hδ.le
    have e : Real.log top + (j + 1 : ℕ) * densErr hi = Real.log top + j * densErr hi + densErr hi := by
      push_cast; ring
    have e2 : strainAt κ A E inp (j + 1) = strainAt κ A E inp j + stepSupply κ A (inp j) := by
      unfold strainAt
      rw [Finset.sum_range_succ, add_assoc]
    have hcw := mul_le_mul_of_nonneg_left (hwork j hj.le) (abs_nonneg (1 / M.eos.cvav))
    obtain ⟨ht1, ht2⟩ := tK_change M (inp j) (m j) m0.eInt _ T1 T2 he (by linarith) (by linarith)
    obtain ⟨m', h1, h2, h3⟩ := C84_step hS hM hel hc hk hd (B := Real.log top + j * densErr hi) (by linarith) (by
        have := mul_le_mul_of_nonneg_right hjR hδ.le
        linarith) (X j) (hX j hj) (inp j) (hi' j hj) (hV j hj) (m j) hb ht1 ht2 (by
        rcases hL with hL | hL
        · left
          cases j with
          | zero => exact hL.1
          | succ j => exact hL.2 j _
        · exact Or.inr (hL j hj))
    refine ⟨m', h1, by rw [e, e2]; exact h2, ?_⟩
    have e3 : workAt κ A E inp (j + 1) = workAt κ A E inp j
        + (inp j).dt * frob (devOfSvecP (inp j).d) * (Real.sqrt κ * (strainAt κ A E inp j + stepSupply κ A (inp j))) := by
      unfold workAt
      rw [Finset.sum_range_succ, e2]
    rw [e3]
    have h4 : m'.eInt - m0.eInt = ((m j).eInt - m0.eInt) + (m'.eInt - (m j).eInt) := by ring
    rw [h4]
    exact (abs_add_le _ _).trans (add_le_add he h3)
  have hm1 : ∀ j m', getResponseSngl (X j) M (inp j) (m j) = .ok m' → histOf (m (j + 1)) = histOf m' ∧
      (m (j + 1)).eInt = m'.eInt ∧ devOfSvecP (m (j + 1)).stress = devOfSvecP m'.stress := by
    intro j m' hm'
    have e : m (j + 1) = next j m' := by
      show next j (out j (m j)) = _
      simp only [out, hm']
    rw [e]
    refine ⟨?_, (hnext j _).2.1, (hnext j _).2.2 (C84_deviator _ _ _ _ _ hm')⟩
    unfold histOf
    rw [(hnext j _).1]
  have key : ∀ j, j ≤ K → KMHot k M.el κ (Real.log top + j * densErr hi) hi (strainAt κ A E inp j) (m j) ∧
      |(m j).eInt - m0.eInt| ≤ workAt κ A E inp j := by
    intro j
    induction j with
    | zero =>
      intro _
      refine ⟨⟨hr.band.mono (by simp), ?_, ?_⟩, ?_⟩
      · rw [show strainAt κ A E inp 0 = E by simp [strainAt]]; exact hr.strain
      · rw [show strainAt κ A E inp 0 = E by simp [strainAt]]; exact hr.stress
      · simp [workAt, m]
    | succ j ih =>
      intro hj
      obtain ⟨m', h1, h2, h3⟩ := hstep j (by omega) (ih (by omega)).1 (ih (by omega)).2
      obtain ⟨e1, e2, e3⟩ := hm1 j m' h1
      refine ⟨⟨?_, ?_, ?_⟩, ?_⟩
      · rw [e1]; exact h2.band
      · rw [e1]; exact h2.strain
      · rw [e3]; exact h2.stress
      · rw [e2]; exact h3
  have hok : ∀ j < K, getResponseSngl (X j) M (inp j) (m j) = .ok (out j (m j)) := by
    intro j hj
    obtain ⟨m', h1, -, -⟩ := hstep j hj (key j hj.le).1 (key j hj.le).2
    simp only [out, h1]
  refine ⟨{ X := X, inp := inp, m := m, m' := fun j => out j (m j), ok := hok
            link := fun j _ => (hnext j _).1 }, rfl, rfl, rfl, fun j => rfl, ?_⟩
  intro j hj
  obtain ⟨m', h1, h2, h3⟩ := hstep j hj (key j hj.le).1 (key j hj.le).2
  have e : out j (m j) = m' := by simp only [out, h1]
  show KMHot _ _ _ _ _ _ (out j (m j)) ∧ |(out j (m j)).eInt - _| ≤ _
  rw [e]
  refine ⟨⟨h2.band.mono ?_, h2.strain, h2.stress⟩, h3⟩
  have hjK : ((j + 1 : ℕ) : ℝ) ≤ K := by exact_mod_cast hj
  have := mul_le_mul_of_nonneg_right hjK hδ.le
  linarith

/-! ### The example program -/

/-- what the example program does to the memory between two calls -/
noncomputable def drvNext (m : Mem 1 n) : Mem 1 n :=
  { eInt := m.eInt, stress := drvStress (drvRetrieve m.stress), hist := m.hist, tkelv := 300, sdd := m.sdd, mtan := some 0 }

theorem drvNext_dev (m : Mem 1 n) (h : IsDev (devOfSvecP m.stress)) :
    devOfSvecP (drvNext m).stress = devOfSvecP m.stress := by
  rw [isDev_iff] at h
  have h2 := h.2
  simp [devOfSvecP] at h2
  ext i j
  fin_cases i <;> fin_cases j <;> simp [devOfSvecP, drvNext, drvStress, drvRetrieve] <;> linarith

theorem drvInp_isochoric (tol : ℝ) : Isochoric (drvInp tol) := by
  refine ⟨rfl, rfl, rfl, ?_⟩
  rw [isDev_iff]
  simp [devOfSvecP, drvInp]
  norm_num

/-- the work of the 60 steps of the example program -/
theorem drvWork_le {κ A tol : ℝ} (hκ : 0 ≤ κ) (hA : 0 ≤ A) (ht : 0 ≤ tol) :
    workAt κ A 0 (fun _ => drvInp tol) 60 ≤ κ * (5 / 4 + tol * (A + 2)) / 6000 := by
  have hf := frob_driver tol
  have hf0 : 0 ≤ frob (devOfSvecP (drvInp tol).d) := Real.sqrt_nonneg _
  have hv : (drvInp tol).vr 1 = 1 := rfl
  have hdt : (drvInp tol).dt = 1 / 4000 := rfl
  have htt : (drvInp tol).tol = tol := rfl
  have hs := Real.sqrt_nonneg κ
  have hsq := Real.mul_self_sqrt hκ
  have e : workAt κ A 0 (fun _ => drvInp tol) 60
      = 1830 * (1 / 4000 * frob (devOfSvecP (drvInp tol).d) * (Real.sqrt κ * stepSupply κ A (drvInp tol))) := by
    unfold workAt strainAt
    simp only [zero_add, Finset.sum_const, Finset.card_range, nsmul_eq_mul, hdt]
    have : ∀ i ∈ Finset.range 60, 1 / 4000 * frob (devOfSvecP (drvInp tol).d)
        * (Real.sqrt κ * (((i + 1 : ℕ) : ℝ) * stepSupply κ A (drvInp tol)))
        = ((i + 1 : ℕ) : ℝ) * (1 / 4000 * frob (devOfSvecP (drvInp tol).d)
          * (Real.sqrt κ * stepSupply κ A (drvInp tol))) := fun i _ => by ring
    rw [Finset.sum_congr rfl this, ← Finset.sum_mul]
    congr 1
    have : ∑ i ∈ Finset.range 60, (i + 1) = 1830 := by decide
    exact_mod_cast this
  rw [e]
  unfold stepSupply
  rw [hv, hdt, htt, Real.one_rpow]
  generalize frob (devOfSvecP (drvInp tol).d) = f at hf hf0
  generalize Real.sqrt κ = σ at hs hsq
  have h1 : f + tol * (A + f + 1 / 10 ^ 6 / (1 / 4000)) ≤ 5 / 4 + tol * (A + 2) := by
    have : tol * (A + f + 1 / 10 ^ 6 / (1 / 4000)) ≤ tol * (A + 2) :=
      mul_le_mul_of_nonneg_left (by norm_num; linarith) ht
    linarith
  have h0 : 0 ≤ f + tol * (A + f + 1 / 10 ^ 6 / (1 / 4000)) := by positivity
  generalize f + tol * (A + f + 1 / 10 ^ 6 / (1 / 4000)) = x at h1 h0
  generalize 5 / 4 + tol * (A + 2) = y at h1
  have h2 : f * x ≤ 5 / 4 * y := mul_le_mul hf h1 h0 (by norm_num)
  have h3 : κ * (f * x) ≤ κ * (5 / 4 * y) := mul_le_mul_of_nonneg_left h2 hκ
  have h4 : 0 ≤ κ * y := mul_nonneg hκ (h0.trans h1)
  calc 1830 * (1 / 4000 * f * (σ * (1 / 4000 * 1 * (σ * x)))) = 1830 / 16000000 * ((σ * σ) * (f * x)) := by ring
    _ = 1830 / 16000000 * (κ * (f * x)) := by rw [hsq]
    _ ≤ κ * y / 6000 := by linarith

/-- **C84, one crystal of the example program**: from an unloaded state with zero energy all 60 steps succeed. -/
theorem C84_driven {M : Material 12 1} {k : KMBalD nV} {S : Solver 1} (hS : Finds S) (hM : KMCrystal M k S)
    {c11 c12 c44 : ℝ} (hel : M.el = .cubic c11 c12 c44) (hc : c12 < c11 ∧ 0 < c44)
    {T1 T2 lo top hi tol : ℝ} (hk : WarmRange k T1 T2 lo hi) (hd : DensRange 12 k lo top hi (1 / 4000))
    (hK : Real.log top + 60 * densErr hi ≤ Real.log hi) (X : Ext) (hX : Finds X.solver)
    (hL : ∀ A B, (X.lup A B).isSome) (htol : 12 * (2 / 10 ^ 13) + 1 / 10 ^ 79 ≤ tol)
    (hT1 : T1 + |1 / M.eos.cvav| * (stiff c11 c12 c44 * (5 / 4 + tol * (topRate k lo hi + 2)) / 6000) ≤ M.eos.tK0)
    (hT2 : M.eos.tK0 + |1 / M.eos.cvav| * (stiff c11 c12 c44 * (5 / 4 + tol * (topRate k lo hi + 2)) / 6000) ≤ T2)
    (s0 : DrvState 1 12) (hv : s0.vol = 1) (he : s0.eng = 0) (hs : s0.stress = 0) (hstr : (Hist.ofArray s0.hist).e = 0)
    (hr : KMBand k (Real.log top) hi (Hist.ofArray s0.hist)) :
    ∃ t, t 0 = s0 ∧ Driven X M tol (1 / 4000) !![-1 / 2, 0, 0; 0, -1 / 2, 0; 0, 0, 1] 60 t := by
  have hκ : 0 ≤ stiff c11 c12 c44 := by
    unfold stiff
    exact (by linarith [hc.2] : (0 : ℝ) ≤ 2 * c44).trans (le_max_right _ _)
  have hlohi : lo ≤ hi := by
    have := hd.floor
    have := hd.ftop.trans hd.top_le
    linarith [hd.pos]
  have ht0 : 0 ≤ tol := le_trans (by norm_num) htol
  have hw := drvWork_le (tol := tol) hκ (topRate_nonneg hk hlohi) ht0
  have hload : KMLoads 12 k lo (1 / 4000) (drvInp tol) := by
    refine ⟨by norm_num [drvInp], le_rfl, by norm_num [drvInp], ?_⟩
    have hle : len (drvInp tol).w = 0 := by
      show Real.sqrt (dot 0 0) = 0
      simp [dot]
    rw [hle, zero_div, add_zero, mul_one]
    exact_mod_cast htol
  have hT0 : (M.eos.evalPT 1 0).2 = M.eos.tK0 := by
    unfold Eos.evalPT
    simp only
    split_ifs <;> simp
  have hcw := mul_le_mul_of_nonneg_left hw (abs_nonneg (1 / M.eos.cvav))
  let m0 : Mem 1 12 := { eInt := s0.eng, stress := drvStress s0.stress, hist := s0.hist, tkelv := 300, sdd := s0.sdd, mtan := some 0 }
  have hm0 : m0.eInt = 0 := he
  obtain ⟨tr, hX', hi', h0, hn, -⟩ := C84_history hS hM hel hc hk hd (K := 60) (by exact_mod_cast hK) (fun _ => X)
    (fun _ _ => hX) (fun _ => drvInp tol) (fun _ _ => hload) (fun _ _ => drvInp_isochoric tol) (fun _ m => drvNext m)
    (fun _ m => ⟨rfl, rfl, drvNext_dev m⟩) m0 (Or.inr fun _ _ => hL) (E := 0) (by
      refine ⟨hr, ?_, ?_⟩
      · show energyNorm M.el (vecdToSymm (Hist.ofArray s0.hist).e) ≤ 0
        rw [hstr, energyNorm_eq]
        unfold wNorm
        simp
      · have : devOfSvecP m0.stress = 0 := by
          ext i j
          fin_cases i <;> fin_cases j <;> simp [devOfSvecP, m0, drvStress, hs]
        rw [this]
        simp [frob, ddot]) (by rw [hm0, hT0]; linarith) (by rw [hm0, hT0]; linarith)
  let st : Mem 1 12 → DrvState 1 12 := fun m =>
    { hist := m.hist, vol := 1, eng := m.eInt, stress := drvRetrieve m.stress, sdd := m.sdd }
  let t : ℕ → DrvState 1 12 := fun j => Nat.casesOn j s0 fun j => st (tr.m' j)
  refine ⟨t, rfl, fun j hj => ?_⟩
  have hm : tr.m j = { eInt := (t j).eng, stress := drvStress (t j).stress, hist := (t j).hist, tkelv := 300
                       sdd := (t j).sdd, mtan := some 0 } := by
    cases j with
    | zero => exact h0
    | succ j => exact hn j
  have hvj : (t j).vol = 1 := by
    cases j with
    | zero => exact hv
    | succ j => rfl
  have hok := tr.ok j hj
  rw [hX', hi', hm] at hok
  unfold drvStep
  rw [hvj, drvSetup_driver]
  dsimp only
  have h1' := hok
  unfold drvInp at h1'
  dsimp only at h1'
  rw [h1']
  rfl

/-- the lines of a parameter file for the model `mts` -/
def mtsPars (rho0 cv tol c11 c12 c44 : ℝ) (k : KMBalD 1) (gamma ec0 : ℝ) : List ℝ :=
  [rho0, cv, tol, c11, c12, c44] ++ k.getParams ++ [gamma, ec0]

/-- **C84, the program.** With proper files for the model `mts` - stable elasticity, a range of temperatures around the
    initial one that is wide enough for the work of the 60 steps, orientations other than zero - the example program goes
    through all its steps and prints 60 lines. -/
theorem C84_program {R : Reader} {u : ℕ → ℝ} {omp gpu : Bool} {S : Solver 1} (hS : Finds S) {X : Ext}
    (hX : Finds X.solver) (hL : ∀ A B, (X.lup A B).isSome) (g : ℕ → ℕ → ℝ) {files : String → List String}
    {optionFile : String} {rho0 cv tol c11 c12 c44 gamma ec0 : ℝ} {k : KMBalD 1} {qs : List (Vec 4)} {device : Strategy}
    (hF : Files R u omp gpu files optionFile .fccB (mtsPars rho0 cv tol c11 c12 c44 k gamma ec0) qs device)
    (hq : ∀ q ∈ qs, q ≠ 0) (hcv : cv ≠ 0) (hel : c12 < c11 ∧ 0 < c44 ∧ 0 < c11 + 2 * c12)
    (hflags : k.withGA = false ∧ k.pOne = false ∧ k.qOne = false ∧ k.perSS = false)
    {T1 T2 lo top hi : ℝ} (hk : WarmRange k T1 T2 lo hi) (hd : DensRange 12 k lo top hi (1 / 4000))
    (hK : Real.log top + 60 * densErr hi ≤ Real.log hi) (hh : k.hdnInit ≤ top)
    (htol : 12 * (2 / 10 ^ 13) + 1 / 10 ^ 79 ≤ tol)
    (hT1 : T1 + |1 / cv| * (stiff c11 c12 c44 * (5 / 4 + tol * (topRate k lo hi + 2)) / 6000) ≤ -ec0 / cv)
    (hT2 : -ec0 / cv + |1 / cv| * (stiff c11 c12 c44 * (5 / 4 + tol * (topRate k lo hi + 2)) / 6000) ≤ T2) :
    ∃ out, drvMain R u omp gpu S X g files optionFile = .ok out ∧ out.length = 60 := by
  let M : Material 12 1 :=
    { geom := slipPQ fccM fccS, kin := k.kin S 12, el := .cubic c11 c12 c44
      eos := { isothermal := false, rho0 := rho0, bulkMod := (Elast.cubic c11 c12 c44).kBulkMod, cvav := cv
               gamma := gamma, ec0 := ec0 } }
  have hM : KMCrystal M k S :=
    ⟨by norm_num, ⟨fccM, fccS, rfl, C16_fcc.1⟩, rfl, (C47_positive_definite _).2
      (((C47_stability_constants c11 c12 0 0 c44 0).1).2 ⟨hel.1, hel.2.1⟩), hcv⟩
  have htK : M.eos.tK0 = -ec0 / cv := by
    show -ec0 * (1 / cv) = _
    ring
  have hset : KMBalD.setParams false false false false 1 k.getParams = .ok k := by
    have := KMBalD.setParams_getParams k
    rw [hflags.1, hflags.2.1, hflags.2.2.1, hflags.2.2.2] at this
    rw [this]
    simp
  have hB : BuiltFrom Case.fccB.type S (mtsPars rho0 cv tol c11 c12 c44 k gamma ec0) M tol := by
    refine ⟨rho0, cv, gamma, ec0, [], [c11, c12, c44], k.getParams, k.histInfo, rfl, rfl, rfl, ?_, C16_fcc.2, rfl, ?_,
      ?_, rfl, rfl⟩
    · simp [KMBalD.getParams, KMBalD.nParams, Case.type]
    · show kinKM false false false false 1 12 S k.getParams = _
      unfold kinKM
      rw [hset]
      rfl
    · show 0 < (Elast.cubic c11 c12 c44).kBulkMod
      unfold Elast.kBulkMod
      have := hel.2.2
      simp only
      linarith
  have hhi0 : 0 < hi := (div_pos hd.hdnInit (by norm_num)).trans_le (hd.ftop.trans hd.top_le)
  have htop0 : 0 < top := (div_pos hd.hdnInit (by norm_num)).trans_le hd.ftop
  have hfresh : ∀ q ∈ qs, ∃ t : ℕ → DrvState 1 12, Fresh .fccB (mtsPars rho0 cv tol c11 c12 c44 k gamma ec0) q (t 0) ∧
      Driven X M tol (1 / 4000) !![-1 / 2, 0, 0; 0, -1 / 2, 0; 0, 0, 1] 60 t := by
    intro q hqq
    let h0 : Hist 1 12 :=
      { shrateEff := 0, shrEff := 0, flowStr := 0, nFEval := 0, e := 0, q := q, h := fun _ => k.hdnInit, gdot := 0 }
    let s0 : DrvState 1 12 := { hist := h0.toArray, vol := 1, eng := 0, stress := 0, sdd := 0 }
    have hs : Hist.ofArray s0.hist = h0 := Hist.ofArray_toArray h0
    obtain ⟨t, ht, hdr⟩ := C84_driven hS hM rfl ⟨hel.1, hel.2.1⟩ hk hd hK X hX hL htol (by rw [htK]; exact hT1)
      (by rw [htK]; exact hT2) s0 rfl rfl rfl (congrArg Hist.e hs) (by
        rw [hs]
        refine ⟨hq q hqq, ?_, ?_⟩
        · rw [Real.exp_log htop0]; exact hh
        · simp only [h0, Pi.zero_apply, abs_zero, Finset.sum_const_zero]
          exact mul_nonneg (by norm_num) (mul_nonneg (hk.par 0).r.le hhi0.le))
    refine ⟨t, ?_, hdr⟩
    rw [ht]
    refine ⟨?_, ?_, ?_, ?_, ?_, ?_, ?_, rfl, rfl, rfl⟩
    all_goals first
      | exact congrArg Hist.q hs
      | exact congrArg Hist.e hs
      | exact congrArg Hist.gdot hs
      | exact congrArg Hist.shrEff hs
      | exact congrArg Hist.shrateEff hs
      | exact congrArg Hist.nFEval hs
      | (intro i; exact congrFun (congrArg Hist.h hs) i)
  have hts : ∃ ts : List (ℕ → DrvState 1 12), List.Forall₂ (fun q t =>
      Fresh .fccB (mtsPars rho0 cv tol c11 c12 c44 k gamma ec0) q (t 0) ∧
      Driven X M tol (1 / 4000) !![-1 / 2, 0, 0; 0, -1 / 2, 0; 0, 0, 1] 60 t) qs ts := by
    clear hF hq
    induction qs with
    | nil => exact ⟨[], .nil⟩
    | cons q qs ih =>
      obtain ⟨t, ht⟩ := hfresh q (by simp)
      obtain ⟨ts, hts⟩ := ih fun q hq => hfresh q (by simp [hq])
      exact ⟨t :: ts, .cons ht hts⟩
  obtain ⟨ts, hts⟩ := hts
  refine ⟨_, (C81_main R u omp gpu S X g files optionFile _).2
    ⟨.fccB, _, qs, device, M, tol, hF, hB, ts, hts, rfl⟩, by simp⟩

/-! ### Concrete cases -/

theorem test_topRate : topRate testKM (1 / 10 ^ 9) (10 ^ 5) ≤ 10 ^ 8 + 2 * 10 ^ 6 := by
  have h1 : (1 : ℝ) / 10 ^ 5 ≤ Real.sqrt (1 / 10 ^ 9) := Real.le_sqrt_of_sq_le (by norm_num)
  have h2 : 1 / Real.sqrt (1 / 10 ^ 9) ≤ 10 ^ 5 := by
    have := one_div_le_one_div_of_le (by norm_num) h1
    rwa [one_div_one_div] at this
  unfold topRate kmGamW kmGamR
  have e1 : testKM.gamWo = 20 := rfl
  have e2 : testKM.gamRo = 1000 := rfl
  rw [e1, e2]
  have : 20 / Real.sqrt (1 / 10 ^ 9) = 20 * (1 / Real.sqrt (1 / 10 ^ 9)) := by ring
  rw [this]
  generalize 1 / Real.sqrt (1 / 10 ^ 9) = x at h2
  linarith

theorem test_window : (150 : ℝ) + 50000 * (stiff 3 1 1 * (5 / 4 + 1 / 10 ^ 10 * (topRate testKM (1 / 10 ^ 9) (10 ^ 5) + 2)) / 6000) ≤ 300 ∧
    (300 : ℝ) + 50000 * (stiff 3 1 1 * (5 / 4 + 1 / 10 ^ 10 * (topRate testKM (1 / 10 ^ 9) (10 ^ 5) + 2)) / 6000) ≤ 400 := by
  have h := test_topRate
  have hs : stiff 3 1 1 = 2 := by unfold stiff; norm_num
  rw [hs]
  generalize topRate testKM (1 / 10 ^ 9) (10 ^ 5) = x at h
  constructor <;> norm_num <;> linarith

/-- the example program with the elasticity, the kinetics and the equation of state of the test suite
    (test/setup_elastn.h, setup_kin_KMBalD_FFF.h, setup_eos.h), two orientations, on the CPU: it runs to its end -/
example (g : ℕ → ℕ → ℝ) (u : ℕ → ℝ) : ∃ out,
    drvMain (exReader (mtsPars 3 (2 / 10 ^ 5) (1 / 10 ^ 10) 3 1 1 testKM (17 / 10) (-(2 / 10 ^ 5) * 300))) u false false
      (idealSolver 1) ⟨idealSolver 8, fun _ B => some B, 1⟩ g
      (exFiles "mts" "CPU" (mtsPars 3 (2 / 10 ^ 5) (1 / 10 ^ 10) 3 1 1 testKM (17 / 10) (-(2 / 10 ^ 5) * 300)).length)
      "options" = .ok out ∧ out.length = 60 := by
  have hF := exFiles_ok .fccB "mts" "CPU" .cpu false false
    (mtsPars 3 (2 / 10 ^ 5) (1 / 10 ^ 10) 3 1 1 testKM (17 / 10) (-(2 / 10 ^ 5) * 300)) u (Or.inr ⟨rfl, rfl⟩)
    (Or.inl ⟨rfl, rfl⟩)
  have hcv : |1 / ((2 : ℝ) / 10 ^ 5)| = 50000 := by rw [abs_of_pos] <;> norm_num
  have hT : -(-((2 : ℝ) / 10 ^ 5) * 300) / (2 / 10 ^ 5) = 300 := by norm_num
  have hw := test_window
  refine C84_program (idealSolver_finds 1) (idealSolver_finds 8) (fun _ _ => rfl) g hF ?_ (by norm_num) (by norm_num)
    ⟨rfl, rfl, rfl, rfl⟩ testKM_warm (testKM_hard.dens (n := 12) (by norm_num) _)
    (by exact_mod_cast steps_test (K := 60) (by norm_num)) (by norm_num [testKM]) (by norm_num)
    (by rw [hcv, hT]; exact hw.1) (by rw [hcv, hT]; exact hw.2)
  intro q hq h0
  simp only [List.mem_cons, List.not_mem_nil, or_false] at hq
  rcases hq with rfl | rfl
  · simpa using congrFun h0 0
  · simpa using congrFun h0 0

/-- the hypotheses of the theorem on histories: the cubic crystal of the tests, which warms itself up freely -/
example (T : ℝ) (sdd : Vec 2) : ∃ tr : Trajectory warmFcc 60, tr.inp = (fun _ => drvInp (1 / 10 ^ 10)) ∧
    tr.m 0 = testMem (fun _ => testKM.hdnInit) T sdd none ∧ ∀ j, tr.m (j + 1) = { tr.m' j with mtan := none } := by
  have hcv : |1 / warmFcc.eos.cvav| = 50000 := by
    rw [abs_of_pos] <;> norm_num [warmFcc, testMatB, testEos]
  have hT : (warmFcc.eos.evalPT 1 (testMem (fun _ => testKM.hdnInit) T sdd none : Mem 1 12).eInt).2 = 300 := by
    norm_num [Eos.evalPT, Eos.tK0, Eos.dtde0, warmFcc, testMatB, testEos, testMem]
  have hw := test_window
  have hs : stiff 3 1 1 = 2 := by unfold stiff; norm_num
  have hwork := drvWork_le (κ := stiff 3 1 1) (A := topRate testKM (1 / 10 ^ 9) (10 ^ 5)) (tol := 1 / 10 ^ 10)
    (by rw [hs]; norm_num) (topRate_nonneg testKM_warm (by norm_num)) (by norm_num)
  have hload : KMLoads 12 testKM (1 / 10 ^ 9) (1 / 4000) (drvInp (1 / 10 ^ 10)) :=
    testKM_hard.loads (n := 12) (inp := drvInp (1 / 10 ^ 10)) (by norm_num) (by norm_num [drvInp]) (by norm_num [drvInp]) (by
      show Real.sqrt (dot 0 0) ≤ _
      simp [dot]) (by norm_num [drvInp])
  have hb := testMem_band (n := 12) testKM_hard T sdd none
  obtain ⟨tr, -, h1, h2, h3, -⟩ := C84_history (idealSolver_finds 1) warmFcc_crystal (c11 := 3) (c12 := 1) (c44 := 1) rfl
    (by norm_num) testKM_warm (testKM_hard.dens (n := 12) (by norm_num) (1 / 4000)) (K := 60)
    (by exact_mod_cast steps_test (K := 60) (by norm_num)) (fun _ => ⟨idealSolver 8, idealLup, 1⟩)
    (fun _ _ => idealSolver_finds 8) (fun _ => drvInp (1 / 10 ^ 10)) (fun _ _ => hload)
    (fun _ _ => drvInp_isochoric _) (fun _ m => { m with mtan := none }) (fun _ _ => ⟨rfl, rfl, fun _ => rfl⟩)
    (testMem (fun _ => testKM.hdnInit) T sdd none) (Or.inl ⟨rfl, fun _ _ => rfl⟩) (E := 0) (by
      refine ⟨hb, ?_, ?_⟩
      · rw [energyNorm_eq]
        unfold wNorm histOf testMem
        rw [Hist.ofArray_toArray]
        simp
      · have : devOfSvecP (testMem (fun _ => testKM.hdnInit) T sdd none : Mem 1 12).stress = 0 := by
          ext i j
          fin_cases i <;> fin_cases j <;> simp [devOfSvecP, testMem]
        rw [this]
        simp [frob, ddot]) (by rw [hcv, hT]; linarith [hw.1]) (by rw [hcv, hT]; linarith [hw.2])
  exact ⟨tr, h1, h2, h3⟩

end Ecm.Props
