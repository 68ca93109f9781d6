/- Property theorems C69: the implicit elastic strain update is stable for every time step
   (src/ecmech/ECMech_evptn.h, computeRJ and getResponseSngl). -/
import Verif.Lemmas.Stability
import Verif.Lemmas.LongRun
import Verif.Props.Response
import Verif.Props.Elast

namespace Ecm.Props
open Ecm Spec Matrix

variable {n nH : ℕ}

/-- size of a deviatoric elastic strain: the square root of twice the elastic energy per volume -/
noncomputable def energyNorm (el : Elast) (E : T3) : ℝ := Real.sqrt (ddot E (refStress el E))

/-- Frobenius norm of a tensor -/
noncomputable def frob (A : T3) : ℝ := Real.sqrt (ddot A A)

/-- what one step of length `dt` at relative volume `v` can add to the size of the elastic strain: the
    imposed deformation rate `D`, and the error the solver's tolerance allows, for a reference rate `A`
    and a largest shear stiffness `κ` -/
noncomputable def stepSupply (κ A : ℝ) (inp : Inputs) : ℝ :=
  inp.dt * (inp.vr 1) ^ (1 / 3 : ℝ) * (Real.sqrt κ * (frob (devOfSvecP inp.d)
    + inp.tol * (A + frob (devOfSvecP inp.d) + 1 / 10 ^ 6 / inp.dt)))

/-- the kinetics report a positive reference slip rate of at most `A` -/
def RefRateAtMost (K : Kin n nH) (A : ℝ) : Prop :=
  ∀ p T h v sc, K.getVals p T h = .ok (v, sc) → 0 < K.fixedRefRate v ∧ K.fixedRefRate v ≤ A

theorem energyNorm_eq (el : Elast) (v : Vec 5) :
    energyNorm el (vecdToSymm v) = wNorm el.kDiag v := by
  unfold energyNorm wNorm
  congr 1
  cases el <;>
    simp only [ddot, Fin.sum_univ_three, Fin.sum_univ_five, refStress, cubicStress, hexagStress,
      Elast.kDiag, vecdToSymm, ofSvecP, vecdsToSvecP, Matrix.of_apply, Matrix.cons_val] <;> sqr_ring

theorem frob_eq {d : Vec 7} (hd : IsDev (devOfSvecP d)) :
    frob (devOfSvecP d) = vecNorm (svecToVecd d) := by
  have e1 : svecToVecd d = symmToVecd (devOfSvecP d) := by
    obtain ⟨h1, h2, h3, h4⟩ := (isDev_iff _).1 hd
    simp [devOfSvecP] at h4
    funext i
    fin_cases i <;> simp [svecToVecd, symmToVecd, devOfSvecP]
    rw [h4]
    sqr_ring
  rw [e1]
  unfold frob vecNorm
  congr 1
  have e2 := vecdToSymm_symmToVecd _ hd
  generalize symmToVecd (devOfSvecP d) = u at e2
  rw [← e2]
  simp only [ddot, Fin.sum_univ_three, Fin.sum_univ_five, vecdToSymm, ofSvecP, vecdsToSvecP,
    Matrix.of_apply, Matrix.cons_val]
  sqr_ring

/-- **C69, one update.** With a solver that keeps its contract, stable cubic elasticity and kinetics that
    never oppose the stress, the size of the elastic strain grows in one step of any length by at most
    what the imposed deformation and the solver tolerance supply.  `A` bounds the reference rate of this step. -/
theorem C69_step_at (X : Ext) (hX : X.solver.Sound) (M : Material n nH) (c11 c12 c44 : ℝ)
    (hel : M.el = .cubic c11 c12 c44) (hc : c12 < c11 ∧ 0 < c44) (A : ℝ)
    (inp : Inputs) (hdt : 0 < inp.dt) (hd : IsDev (devOfSvecP inp.d))
    (m m' : Mem nH n) (h : getResponseSngl X M inp m = .ok m')
    (hA : ∀ v sc, M.kin.getVals (Step.eosUpdate M inp m).press (Step.tK M inp m) (histOf m').h = .ok (v, sc) →
      0 < M.kin.fixedRefRate v ∧ M.kin.fixedRefRate v ≤ A) (hK : DissipativeAt M.kin m'.tkelv) :
    energyNorm M.el (vecdToSymm (histOf m').e) ≤ energyNorm M.el (vecdToSymm (histOf m).e)
      + stepSupply (max (c11 - c12) (2 * c44)) A inp := by
  obtain ⟨s⟩ := getResponseSngl_ok h
  rw [s.htk] at hK
  have he : (histOf m').e = s.P.eF (Step.solve X inp s.P).x := by rw [OkStep.hist_eq s]; rfl
  have heN : s.P.eN = (histOf m).e := by rw [s.hP]
  have hPel : s.P.el = M.el := by rw [s.hP]
  have hPdt : s.P.dt = inp.dt := by rw [s.hP]
  have hPv : s.P.detV = inp.vr 1 := by rw [s.hP]
  have hPd : s.P.dSm = svecToVecd inp.d := by rw [s.hP]
  have hPa : s.P.adotsRef = M.kin.fixedRefRate s.v := by rw [s.hP]
  have hcn : qn s.P.cN = 1 := by rw [s.hP]; exact qn_quatN s.hq
  have hh : (histOf m').h = s.hU := by rw [OkStep.hist_eq s]; rfl
  rw [hh] at hA
  obtain ⟨ha0, ha1⟩ := hA _ _ s.hV
  rw [← hPa] at ha0 ha1
  have hkp : ∀ k, 0 < s.P.el.kDiag k := by
    rw [hPel, hel]; exact ((C47_stability_constants c11 c12 0 0 c44 0).1).2 hc
  have hκ : ∀ k, s.P.el.kDiag k ≤ max (c11 - c12) (2 * c44) := by
    intro k
    rw [hPel, hel]
    fin_cases k <;> simp [Elast.kDiag]
  have hgd : s.P.gd = M.kin.evalGdot s.v := by rw [s.hP]
  have hstep := s.P.wNorm_step (hPel.trans hel) hkp hκ (hPdt ▸ hdt) (hPv ▸ s.hv) hcn
    (Step.solve X inp s.P).x (fun i => by
      simp only [Updst.gdot, hgd]
      exact hK _ _ _ _ s.hV i _)
  obtain ⟨⟨r, J, hr, hrt⟩, -⟩ := hX _ _ _ _ s.hc
  have hr' : r = s.P.resid (Step.solve X inp s.P).x := by
    have : some (s.P.resid (Step.solve X inp s.P).x, _) = some (r, J) := hr
    exact (Prod.mk.inj (Option.some.inj this)).1.symm
  rw [hr'] at hrt
  have hres := s.P.residE_le (hPdt ▸ hdt) ha0 hrt
  have htol : 0 ≤ inp.tol := (vecNorm_nonneg _).trans hrt
  rw [energyNorm_eq, energyNorm_eq, he, ← heN, ← hPel]
  refine hstep.trans (add_le_add le_rfl ?_)
  unfold stepSupply
  rw [frob_eq hd, ← hPd, ← hPdt, ← hPv]
  have haV := s.P.aV_pos (hPv ▸ s.hv)
  refine mul_le_mul_of_nonneg_left ?_ (mul_pos (hPdt ▸ hdt) haV).le
  refine mul_le_mul_of_nonneg_left ?_ (Real.sqrt_nonneg _)
  have := mul_le_mul_of_nonneg_left ha1 htol
  nlinarith [hres]

/-- **C69, one update.** With a solver that keeps its contract, stable cubic elasticity and kinetics that
    never oppose the stress, the size of the elastic strain grows in one step of any length by at most
    what the imposed deformation and the solver tolerance supply. -/
theorem C69_step (X : Ext) (hX : X.solver.Sound) (M : Material n nH) (c11 c12 c44 : ℝ)
    (hel : M.el = .cubic c11 c12 c44) (hc : c12 < c11 ∧ 0 < c44) (A : ℝ)
    (hA : RefRateAtMost M.kin A) (inp : Inputs) (hdt : 0 < inp.dt) (hd : IsDev (devOfSvecP inp.d))
    (m m' : Mem nH n) (h : getResponseSngl X M inp m = .ok m') (hK : DissipativeAt M.kin m'.tkelv) :
    energyNorm M.el (vecdToSymm (histOf m').e) ≤ energyNorm M.el (vecdToSymm (histOf m).e)
      + stepSupply (max (c11 - c12) (2 * c44)) A inp :=
  C69_step_at X hX M c11 c12 c44 hel hc A inp hdt hd m m' h (fun v sc hv => hA _ _ _ v sc hv) hK

/-- **C69, history.** Over any number of updates with time steps of any lengths, the size of the elastic
    strain stays below its first value plus what was supplied. -/
theorem C69_history {M : Material n nH} {N : ℕ} (t : Trajectory M N)
    (hX : ∀ k < N, (t.X k).solver.Sound) (c11 c12 c44 : ℝ)
    (hel : M.el = .cubic c11 c12 c44) (hc : c12 < c11 ∧ 0 < c44) (A : ℝ)
    (hA : RefRateAtMost M.kin A) (hdt : ∀ k < N, 0 < (t.inp k).dt)
    (hd : ∀ k < N, IsDev (devOfSvecP (t.inp k).d))
    (hK : ∀ k < N, DissipativeAt M.kin (t.m' k).tkelv) (K : ℕ) (hKN : K < N) :
    energyNorm M.el (vecdToSymm (histOf (t.m' K)).e) ≤ energyNorm M.el (vecdToSymm (histOf (t.m 0)).e)
      + ∑ k ∈ Finset.range (K + 1), stepSupply (max (c11 - c12) (2 * c44)) A (t.inp k) := by
  have hs := fun k (hk : k < N) => C69_step (t.X k) (hX k hk) M c11 c12 c44 hel hc A hA (t.inp k)
    (hdt k hk) (hd k hk) _ _ (t.ok k hk) (hK k hk)
  induction K with
  | zero => simpa using hs 0 hKN
  | succ K ih =>
    have h1 := hs _ hKN
    have h2 : histOf (t.m (K + 1)) = histOf (t.m' K) := by unfold histOf; rw [t.link K hKN]
    rw [h2] at h1
    rw [Finset.sum_range_succ]
    have := ih (by omega)
    linarith

/-- **C69, holding.** With no imposed shape change, one step of any length can add no more than the
    solver tolerance allows; with an exact solve the elastic strain never grows. -/
theorem C69_hold (X : Ext) (hX : X.solver.Sound) (M : Material n nH) (c11 c12 c44 : ℝ)
    (hel : M.el = .cubic c11 c12 c44) (hc : c12 < c11 ∧ 0 < c44) (A : ℝ)
    (hA : RefRateAtMost M.kin A) (inp : Inputs) (hdt : 0 < inp.dt) (hd : devOfSvecP inp.d = 0)
    (m m' : Mem nH n) (h : getResponseSngl X M inp m = .ok m') (hK : DissipativeAt M.kin m'.tkelv) :
    energyNorm M.el (vecdToSymm (histOf m').e) ≤ energyNorm M.el (vecdToSymm (histOf m).e)
      + inp.tol * (inp.vr 1) ^ (1 / 3 : ℝ) * Real.sqrt (max (c11 - c12) (2 * c44))
        * (A * inp.dt + 1 / 10 ^ 6) := by
  have hd' : IsDev (devOfSvecP inp.d) := by rw [hd, isDev_iff]; simp
  have hs := C69_step X hX M c11 c12 c44 hel hc A hA inp hdt hd' m m' h hK
  refine hs.trans (le_of_eq ?_)
  have hf : frob (0 : T3) = 0 := by simp [frob, ddot]
  unfold stepSupply
  rw [hd, hf]
  field_simp
  ring

/-- C69 the power-law kinetics have a bounded reference rate. -/
theorem C69_voce (k : Voce) (S : Solver 1) (hw : 0 < k.gamW) : RefRateAtMost (k.kin S n) k.gamW :=
  fun _ _ _ _ _ _ => ⟨hw, le_rfl⟩

/-- the hypotheses hold for histories of any length of a concrete material, starting from any elastic
    strain -/
example (e : Vec 5) (N : ℕ) :
    (∀ k < N, ((runTraj e N).X k).solver.Sound) ∧ runMat.el = .cubic 3 1 1 ∧
    RefRateAtMost runMat.kin 1 ∧ (∀ k < N, 0 < ((runTraj e N).inp k).dt) ∧
    (∀ k < N, IsDev (devOfSvecP ((runTraj e N).inp k).d)) ∧
    (∀ k < N, DissipativeAt runMat.kin ((runTraj e N).m' k).tkelv) := by
  refine ⟨fun _ _ => probe_sound 8, rfl, C69_voce voceExample _ (by norm_num [voceExample]), ?_,
    fun k _ => (runNext_spec (runState e k)).2.2.2.2.2,
    fun k _ => C32_voce _ (by norm_num [voceExample]) (by norm_num [voceExample]) _ _⟩
  intro k _
  show 0 < (runNext (runState e k)).1.dt
  rw [(runNext_spec _).1]; norm_num

end Ecm.Props
