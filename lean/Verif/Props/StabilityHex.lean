/- Property theorems C69 for every class of elasticity: the size of the elastic strain measured from the
   strain without shear stress (src/ecmech/ECMech_evptn.h, computeRJ, getResponseSngl and
   ThermoElastNHexag::eval). -/
import Verif.Lemmas.Exist
import Verif.Props.Unique

namespace Ecm.Props
open Ecm Spec Matrix

variable {n nH : ℕ}

/-- `F` is the elastic strain at which the lattice of the update from `m` is free of deviatoric stress (zero for
    cubic crystals; hexagonal ones have another one at each volume and reference energy) -/
def StressFree (M : Material n nH) (inp : Inputs) (m : Mem nH n) (F : Vec 5) : Prop :=
  ∀ hU P, Step.setup M inp m = .ok (hU, P) → ∀ i : Fin 5, P.elastNEtoT F i.castSucc = 0

theorem eFree_eq (P : Updst n) (hK : ∀ k, 0 < P.el.kDiag k) (hv : 0 < P.detV) {F : Vec 5}
    (hF : ∀ i : Fin 5, P.elastNEtoT F i.castSucc = 0) : F = P.eFree := by
  funext i
  have h := hF i
  rw [P.elastNEtoT_castSucc] at h
  unfold Updst.aVri at h
  have h1 := P.aV_pos hv
  have h2 := hK i
  unfold Updst.eFree
  field_simp at h ⊢
  linarith

/-- **C69, one update, any elasticity.** With a solver that keeps its contract, stable cubic or hexagonal
    elasticity and kinetics that never oppose the stress, the distance of the elastic strain from the
    strain without shear stress grows in one step of any length by at most what the imposed deformation
    and the solver tolerance supply. -/
theorem C69_step_any (X : Ext) (hX : X.solver.Sound) (M : Material n nH) (κ : ℝ)
    (hst : ∀ E, IsDev E → E ≠ 0 → 0 < ddot E (refStress M.el E))
    (hκ : ∀ E, IsDev E → ddot E (refStress M.el E) ≤ κ * ddot E E) (A : ℝ)
    (hA : RefRateAtMost M.kin A) (inp : Inputs) (hdt : 0 < inp.dt) (hd : IsDev (devOfSvecP inp.d))
    (m m' : Mem nH n) (h : getResponseSngl X M inp m = .ok m') (hK : DissipativeAt M.kin m'.tkelv)
    (F : Vec 5) (hF : StressFree M inp m F) :
    energyNorm M.el (vecdToSymm (histOf m').e - vecdToSymm F)
      ≤ energyNorm M.el (vecdToSymm (histOf m).e - vecdToSymm F) + stepSupply κ A inp := by
  obtain ⟨s⟩ := getResponseSngl_ok h
  rw [s.htk] at hK
  have he : (histOf m').e = s.P.eF (Step.solve X inp s.P).x := by rw [OkStep.hist_eq s]; rfl
  have heN : s.P.eN = (histOf m).e := by rw [s.hP]
  have hPel : s.P.el = M.el := by rw [s.hP]
  have hPdt : s.P.dt = inp.dt := by rw [s.hP]
  have hPv : s.P.detV = inp.vr 1 := by rw [s.hP]
  have hPd : s.P.dSm = svecToVecd inp.d := by rw [s.hP]
  have hPa : s.P.adotsRef = M.kin.fixedRefRate s.v := by rw [s.hP]
  have hcn : qn s.P.cN = 1 := by rw [s.hP]; exact qn_quatN s.hq
  obtain ⟨ha0, ha1⟩ := hA _ _ _ _ _ s.hV
  rw [← hPa] at ha0 ha1
  have hkp : ∀ k, 0 < s.P.el.kDiag k := by rw [hPel]; exact (C47_positive_definite M.el).1 hst
  have hkk : ∀ k, s.P.el.kDiag k ≤ κ := by rw [hPel]; exact kDiag_le hκ
  have hgd : s.P.gd = M.kin.evalGdot s.v := by rw [s.hP]
  have hset : Step.setup M inp m = .ok (s.hU, s.P) := by
    rw [Step.setup_eq_ok s.hq s.hcv s.hdt s.hv s.hH s.hV, s.hP]
  have hFF := eFree_eq s.P hkp (hPv ▸ s.hv) (hF _ _ hset)
  have hstep := s.P.wNorm_step_free hkp hkk (hPdt ▸ hdt) (hPv ▸ s.hv) hcn
    (Step.solve X inp s.P).x (fun i => by
      simp only [Updst.gdot, hgd]
      exact hK _ _ _ _ s.hV i _)
  obtain ⟨⟨r, J, hr, hrt⟩, -⟩ := hX _ _ _ _ s.hc
  have hr' : r = s.P.resid (Step.solve X inp s.P).x := by
    have : some (s.P.resid (Step.solve X inp s.P).x, _) = some (r, J) := hr
    exact (Prod.mk.inj (Option.some.inj this)).1.symm
  rw [hr'] at hrt
  have hres := s.P.residE_le (hPdt ▸ hdt) ha0 hrt
  have htol : 0 ≤ inp.tol := (vecNorm_nonneg _).trans hrt
  rw [vecdToSymm_sub, vecdToSymm_sub, energyNorm_eq, energyNorm_eq, he, ← heN, ← hPel, hFF]
  refine hstep.trans (add_le_add le_rfl ?_)
  unfold stepSupply
  rw [frob_eq hd, ← hPd, ← hPdt, ← hPv]
  have haV := s.P.aV_pos (hPv ▸ s.hv)
  refine mul_le_mul_of_nonneg_left ?_ (mul_pos (hPdt ▸ hdt) haV).le
  refine mul_le_mul_of_nonneg_left ?_ (Real.sqrt_nonneg _)
  have := mul_le_mul_of_nonneg_left ha1 htol
  nlinarith [hres]

theorem energyNorm_triangle {el : Elast} (hK : ∀ k, 0 < el.kDiag k) (a b c : Vec 5) :
    energyNorm el (vecdToSymm a - vecdToSymm c)
      ≤ energyNorm el (vecdToSymm a - vecdToSymm b) + energyNorm el (vecdToSymm b - vecdToSymm c) := by
  have hK' : ∀ k, 0 ≤ el.kDiag k := fun k => (hK k).le
  rw [vecdToSymm_sub, vecdToSymm_sub, vecdToSymm_sub, energyNorm_eq, energyNorm_eq, energyNorm_eq,
    wNorm_eq hK', wNorm_eq hK', wNorm_eq hK']
  refine le_trans (le_of_eq (congrArg vecNorm ?_)) (vecNorm_add_le _ _)
  funext i
  simp only [Pi.sub_apply, Pi.add_apply]
  ring

/-- **C69, history, any elasticity.** Over any number of updates with time steps of any lengths, the
    distance of the elastic strain from the strain without shear stress stays below its first value plus
    what was supplied plus what the strain without shear stress itself has moved. -/
theorem C69_history_any {M : Material n nH} {N : ℕ} (t : Trajectory M N)
    (hX : ∀ k < N, (t.X k).solver.Sound) (κ : ℝ)
    (hst : ∀ E, IsDev E → E ≠ 0 → 0 < ddot E (refStress M.el E))
    (hκ : ∀ E, IsDev E → ddot E (refStress M.el E) ≤ κ * ddot E E) (A : ℝ)
    (hA : RefRateAtMost M.kin A) (hdt : ∀ k < N, 0 < (t.inp k).dt)
    (hd : ∀ k < N, IsDev (devOfSvecP (t.inp k).d))
    (hK : ∀ k < N, DissipativeAt M.kin (t.m' k).tkelv)
    (F : ℕ → Vec 5) (hF : ∀ k < N, StressFree M (t.inp k) (t.m k) (F k)) (K : ℕ) (hKN : K < N) :
    energyNorm M.el (vecdToSymm (histOf (t.m' K)).e - vecdToSymm (F K))
      ≤ energyNorm M.el (vecdToSymm (histOf (t.m 0)).e - vecdToSymm (F 0))
      + ∑ k ∈ Finset.range (K + 1), stepSupply κ A (t.inp k)
      + ∑ k ∈ Finset.range K, energyNorm M.el (vecdToSymm (F k) - vecdToSymm (F (k + 1))) := by
  have hs := fun k (hk : k < N) => C69_step_any (t.X k) (hX k hk) M κ hst hκ A hA (t.inp k)
    (hdt k hk) (hd k hk) _ _ (t.ok k hk) (hK k hk) (F k) (hF k hk)
  have hpos := (C47_positive_definite M.el).1 hst
  induction K with
  | zero => simpa using hs 0 hKN
  | succ K ih =>
    have h1 := hs _ hKN
    have h2 : histOf (t.m (K + 1)) = histOf (t.m' K) := by unfold histOf; rw [t.link K hKN]
    rw [h2] at h1
    rw [Finset.sum_range_succ _ (K + 1), Finset.sum_range_succ (fun k => energyNorm M.el _) K]
    have h3 := energyNorm_triangle hpos (histOf (t.m' K)).e (F K) (F (K + 1))
    have := ih (by omega)
    linarith

/-- C69 the stress-free strain exists for every problem that can be set up. -/
theorem C69_stress_free (M : Material n nH) (hst : ∀ E, IsDev E → E ≠ 0 → 0 < ddot E (refStress M.el E))
    (inp : Inputs) (m : Mem nH n) : ∃ F, StressFree M inp m F := by
  have hpos := (C47_positive_definite M.el).1 hst
  cases hs : Step.setup M inp m with
  | fail s => exact ⟨0, fun hU P h => by rw [hs] at h; cases h⟩
  | undef w => exact ⟨0, fun hU P h => by rw [hs] at h; cases h⟩
  | ok r =>
    obtain ⟨hU, P⟩ := r
    refine ⟨P.eFree, fun hU' P' h i => ?_⟩
    rw [hs] at h
    obtain ⟨-, rfl⟩ := Prod.mk.inj (Out.ok.inj h)
    obtain ⟨kU, v, sc, -, -, -, hv, -, -, hP⟩ := Step.setup_ok hs
    rw [P.elastNEtoT_castSucc]
    unfold Updst.eFree Updst.aVri
    have h1 := P.aV_pos (by rw [hP]; exact hv)
    have h2 : 0 < P.el.kDiag i := by rw [hP]; exact hpos i
    field_simp
    ring

/-- hypotheses: a hexagonal crystal whose strain without shear stress is not zero -/
example : ∃ (el : Elast) (m' : Mem 1 12) (F : Vec 5), el = .hexag 300 100 90 310 80 1 ∧
    getResponseSngl exExt (exMat el) (exInp el smallE) (exMem smallE none) = .ok m' ∧
    StressFree (exMat el) (exInp el smallE) (exMem smallE none) F ∧ F ≠ 0 ∧
    (∀ E, IsDev E → E ≠ 0 → 0 < ddot E (refStress (exMat el).el E)) ∧
    RefRateAtMost (exMat el).kin 1 := by
  have hpos : ∀ k, 0 < (Elast.hexag 300 100 90 310 80 1).kDiag k := by
    rw [(C47_stability_constants 300 100 90 310 80 1).2]; norm_num
  have hst := (C47_positive_definite _).2 hpos
  obtain ⟨F, hF⟩ := C69_stress_free (exMat (.hexag 300 100 90 310 80 1)) hst
    (exInp (.hexag 300 100 90 310 80 1) smallE) (exMem smallE none)
  have hg : 0 < (Elast.hexag 300 100 90 310 80 1).kGmod := by
    simp [Elast.kGmod, Elast.kDiag, vecsssum, Fin.sum_univ_five]
    norm_num
  obtain ⟨m', hm'⟩ := ex_ok (.hexag 300 100 90 310 80 1) hg smallE none
  refine ⟨_, m', F, rfl, hm', hF, ?_, hst, C69_voce voceExample _ (by norm_num [voceExample])⟩
  rintro rfl
  have h1 := hF _ _ (ex_setup _ _ _) 1
  simp [Updst.elastNEtoT, Elast.eval, vecsVxa, exProb, Elast.kSdax3, Elast.gVecd2] at h1
  norm_num at h1

end Ecm.Props
