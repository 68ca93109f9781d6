/- Property theorems C85 for hexagonal crystals (src/ecmech/ECMech_slipgeom.h:338-430, src/ecmech/ECMech_evptn.h:385-700,
   src/ecmech/ECMech_elastn.h, ThermoElastNHexag::eval).

   The 24 hexagonal systems carry a part of any stress that depends on the axial ratio alone; the strain is measured from
   the strain without shear stress, which for hexagonal crystals is another one at each volume. -/
import Verif.Lemmas.YieldFree
import Verif.Props.Yield
import Verif.Props.StabilityHex
import Verif.Props.SlipGeom

namespace Ecm.Props
open Ecm Spec

variable {n nH : ℕ}

/-- **C85, HCP systems.** For every axial ratio `r = c/a` the systems that the code sets up carry at least the part
    `1/√(8 + 8 (r² + 3/4) (r² + 1) / (9 r²))` of any stress. -/
theorem C85_hcp (r : ℝ) (hr : 0 < r) : ∃ m s, hcpMS r = .ok (m, s) ∧ slipGeomHCP r = .ok (slipPQ m s) ∧
    (∀ i, IsSlipSystem (m i) (s i)) ∧
    Activates m s (1 / Real.sqrt (8 + 8 / 9 * ((r ^ 2 + 3 / 4) * (r ^ 2 + 1) / r ^ 2))) := by
  obtain ⟨m, s, h1, h2, h3⟩ := C16_hcp r hr
  refine ⟨m, s, h1, h3, h2, ?_⟩
  rw [hcpMS_eq hr] at h1
  cases h1
  intro T hT
  exact hcp_resolved hr hT

/-- **C85, HCP systems, usual ratios.** With an axial ratio between 1.5 and 2, as in all hexagonal metals, some system
    carries more than a quarter of any stress, as in cubic crystals. -/
theorem C85_hcp_usual (r : ℝ) (h1 : 3 / 2 ≤ r) (h2 : r ≤ 2) : ∃ m s, slipGeomHCP r = .ok (slipPQ m s) ∧
    (∀ i, IsSlipSystem (m i) (s i)) ∧ Activates m s (1 / 4) := by
  obtain ⟨m, s, -, h3, h4, h5⟩ := C85_hcp r (by linarith)
  refine ⟨m, s, h3, h4, fun T hT => ?_⟩
  obtain ⟨i, hi⟩ := h5 T hT
  refine ⟨i, le_trans (mul_le_mul_of_nonneg_right ?_ (Real.sqrt_nonneg _)) hi⟩
  have hr : 0 < r := by linarith
  have hq : 8 + 8 / 9 * ((r ^ 2 + 3 / 4) * (r ^ 2 + 1) / r ^ 2) ≤ 16 := by
    have h6 : (r ^ 2 + 3 / 4) * (r ^ 2 + 1) / r ^ 2 ≤ 9 := by
      rw [div_le_iff₀ (by positivity)]
      nlinarith [mul_nonneg (sub_nonneg.2 h1) (sub_nonneg.2 h2), sq_nonneg (r ^ 2 - 3)]
    linarith
  have h7 : Real.sqrt (8 + 8 / 9 * ((r ^ 2 + 3 / 4) * (r ^ 2 + 1) / r ^ 2)) ≤ 4 := by
    rw [Real.sqrt_le_left (by norm_num)]; linarith
  exact one_div_le_one_div_of_le (Real.sqrt_pos.2 (by positivity)) h7

/-- **C85, tension along c.** The twelve systems with slip along a - the first three families - carry nothing of a tension
    along c: without the c+a systems the crystal would not yield. -/
theorem C85_hcp_needs (r : ℝ) (hr : 0 < r) : ∃ m s, hcpMS r = .ok (m, s) ∧
    ∃ T : T3, IsDev T ∧ T ≠ 0 ∧ ∀ i : Fin 24, (i : ℕ) < 12 → dot (s i) (T.mulVec (m i)) = 0 := by
  refine ⟨_, _, hcpMS_eq hr, Matrix.diagonal ![-1, -1, 2], ?_, ?_, ?_⟩
  · rw [isDev_iff]
    simp [Matrix.diagonal]
    norm_num
  · intro h
    have := congrFun (congrFun h 2) 2
    simp [Matrix.diagonal] at this
  · intro i hi
    show hcpTau r _ i = 0
    rw [hcpTau_int hr]
    simp only [Fin.sum_univ_three, hcpDs, hcpDm]
    fin_cases i <;> first
      | (exfalso; revert hi; decide)
      | (simp [hcpSI, hcpMI, Matrix.diagonal, hcpFam, hcpCm, hcpCs] <;> first | done | (right; ring))

theorem kDiag_ge {el : Elast} {κ : ℝ} (hκ : ∀ E, IsDev E → κ * ddot E E ≤ ddot E (refStress el E))
    (k : Fin 5) : κ ≤ el.kDiag k := by
  have h := hκ _ (vecdToSymm_isDev (Pi.single k 1))
  have e1 : ∀ v : Vec 5, ddot (vecdToSymm v) (refStress el (vecdToSymm v))
      = ∑ k, el.kDiag k * v k ^ 2 := by
    intro v
    cases el <;>
      simp only [ddot, Fin.sum_univ_three, Fin.sum_univ_five, refStress, cubicStress, hexagStress,
        Elast.kDiag, vecdToSymm, ofSvecP, vecdsToSvecP, Matrix.of_apply, Matrix.cons_val] <;> sqr_ring
  have e2 : ∀ v : Vec 5, ddot (vecdToSymm v) (vecdToSymm v) = ∑ k, v k ^ 2 := by
    intro v
    simp only [ddot, Fin.sum_univ_three, Fin.sum_univ_five, vecdToSymm, ofSvecP, vecdsToSvecP,
      Matrix.of_apply, Matrix.cons_val]
    sqr_ring
  rw [e1, e2] at h
  simpa [Pi.single_apply] using h

/-- **C85, one step, any elasticity.** With shear stiffnesses between `κ0` and `κ`: after a step of any length either the
    elastic strain, measured from the strain without shear stress, is smaller than what the yield stress `τY` carries, or it
    grew by no more than the loading supplied less the slip at the yield stress. -/
theorem C85_step_any (X : Ext) (hX : X.solver.Sound) (M : Material n nH) {κ κ0 : ℝ} (hκ0 : 0 < κ0)
    (hlo : ∀ E, IsDev E → κ0 * ddot E E ≤ ddot E (refStress M.el E))
    (hhi : ∀ E, IsDev E → ddot E (refStress M.el E) ≤ κ * ddot E E)
    (m s : Fin n → Vec 3) (hgeom : M.geom = slipPQ m s)
    (hms : ∀ i, IsSlipSystem (m i) (s i)) {c : ℝ} (hc0 : 0 < c) (hac : Activates m s c) (A : ℝ)
    (inp : Inputs) (hdt : 0 < inp.dt) (hd : IsDev (devOfSvecP inp.d))
    (mem mem' : Mem nH n) (h : getResponseSngl X M inp mem = .ok mem')
    (hA : ∀ v sc, M.kin.getVals (Step.eosUpdate M inp mem).press (Step.tK M inp mem) (histOf mem').h = .ok (v, sc) →
      0 < M.kin.fixedRefRate v ∧ M.kin.fixedRefRate v ≤ A) (hK : DissipativeAt M.kin mem'.tkelv)
    {τY γY : ℝ} (hτ : 0 < τY) (hγ : 0 ≤ γY) (hY : YieldsAt M.kin mem'.tkelv (histOf mem').h τY γY)
    (F : Vec 5) (hF : StressFree M inp mem F) :
    c * Real.sqrt κ0 * energyNorm M.el (vecdToSymm (histOf mem').e - vecdToSymm F) < τY * (inp.vr 1) ^ (1 / 3 : ℝ) ∨
    energyNorm M.el (vecdToSymm (histOf mem').e - vecdToSymm F) ≤ energyNorm M.el (vecdToSymm (histOf mem).e - vecdToSymm F)
      + inp.dt * (inp.vr 1) ^ (1 / 3 : ℝ) * (Real.sqrt κ * loadRate A inp - c * Real.sqrt κ0 * γY) := by
  rcases lt_or_ge (c * Real.sqrt κ0 * energyNorm M.el (vecdToSymm (histOf mem').e - vecdToSymm F))
    (τY * (inp.vr 1) ^ (1 / 3 : ℝ)) with hlt | hge
  · exact Or.inl hlt
  right
  obtain ⟨s'⟩ := getResponseSngl_ok h
  have hh : (histOf mem').h = s'.hU := by rw [OkStep.hist_eq s']; rfl
  rw [s'.htk] at hK hY
  rw [hh] at hA hY
  have he : (histOf mem').e = s'.P.eF (Step.solve X inp s'.P).x := by rw [OkStep.hist_eq s']; rfl
  have heN : s'.P.eN = (histOf mem).e := by rw [s'.hP]
  have hPel : s'.P.el = M.el := by rw [s'.hP]
  have hPdt : s'.P.dt = inp.dt := by rw [s'.hP]
  have hPv : s'.P.detV = inp.vr 1 := by rw [s'.hP]
  have hPd : s'.P.dSm = svecToVecd inp.d := by rw [s'.hP]
  have hPa : s'.P.adotsRef = M.kin.fixedRefRate s'.v := by rw [s'.hP]
  have hPg : s'.P.geom = M.geom := by rw [s'.hP]
  have hcn : qn s'.P.cN = 1 := by rw [s'.hP]; exact qn_quatN s'.hq
  obtain ⟨ha0, ha1⟩ := hA _ _ s'.hV
  rw [← hPa] at ha0 ha1
  have hkk : ∀ k, s'.P.el.kDiag k ≤ κ := by rw [hPel]; exact kDiag_le hhi
  have hkl : ∀ k, κ0 ≤ s'.P.el.kDiag k := by rw [hPel]; exact kDiag_ge hlo
  have hgd : s'.P.gd = M.kin.evalGdot s'.v := by rw [s'.hP]
  have hG : Resolves s'.P.geom.P c := by
    rw [hPg, hgeom]; exact (C85_tables m s hms c).2 hac
  have hset : Step.setup M inp mem = .ok (s'.hU, s'.P) := by
    rw [Step.setup_eq_ok s'.hq s'.hcv s'.hdt s'.hv s'.hH s'.hV, s'.hP]
  have hFF := eFree_eq s'.P (fun k => hκ0.trans_le (hkl k)) (hPv ▸ s'.hv) (hF _ _ hset)
  rw [vecdToSymm_sub, vecdToSymm_sub, energyNorm_eq, energyNorm_eq, he, ← heN, ← hPel, hFF]
  rw [vecdToSymm_sub, energyNorm_eq, he, ← hPel, ← hPv, hFF] at hge
  have hstep := s'.P.wNorm_yield_free hkk hκ0 hkl (hPdt ▸ hdt) (hPv ▸ s'.hv) hcn hc0 hG
    (Step.solve X inp s'.P).x (fun i => by
      simp only [Updst.gdot, hgd]
      exact hK _ _ _ _ s'.hV i _) hτ hγ (fun i hi => by
      simp only [Updst.gdot, hgd]
      exact hY _ _ _ s'.hV i _ hi) hge
  obtain ⟨⟨r, J, hr, hrt⟩, -⟩ := hX _ _ _ _ s'.hc
  have hr' : r = s'.P.resid (Step.solve X inp s'.P).x := by
    have : some (s'.P.resid (Step.solve X inp s'.P).x, _) = some (r, J) := hr
    exact (Prod.mk.inj (Option.some.inj this)).1.symm
  rw [hr'] at hrt
  have hres := s'.P.residE_le (hPdt ▸ hdt) ha0 hrt
  have htol : 0 ≤ inp.tol := (vecNorm_nonneg _).trans hrt
  refine hstep.trans (add_le_add le_rfl ?_)
  rw [← hPdt, ← hPv]
  have haV := s'.P.aV_pos (hPv ▸ s'.hv)
  refine mul_le_mul_of_nonneg_left (sub_le_sub_right ?_ _) (mul_pos (hPdt ▸ hdt) haV).le
  refine mul_le_mul_of_nonneg_left ?_ (Real.sqrt_nonneg _)
  unfold loadRate
  rw [frob_eq hd, ← hPd, ← hPdt]
  have := mul_le_mul_of_nonneg_left ha1 htol
  nlinarith [hres]

/-- how far the strain without shear stress moves from the step before to step `k` -/
noncomputable def freeMove (el : Elast) (F : ℕ → Vec 5) : ℕ → ℝ
  | 0 => 0
  | k + 1 => energyNorm el (vecdToSymm (F k) - vecdToSymm (F (k + 1)))

/-- **C85, histories, any elasticity.** If in every step the slip at the yield stress exceeds the loading, together with what
    the strain without shear stress moves, by the margin `δ`, then the distance of the elastic strain from the strain
    without shear stress falls at the rate `δ` until it is below what the yield stress carries, and never again
    exceeds that. -/
theorem C85_history_any {M : Material n nH} {N : ℕ} (t : Trajectory M N)
    (hX : ∀ k < N, (t.X k).solver.Sound) {κ κ0 : ℝ} (hκ0 : 0 < κ0)
    (hlo : ∀ E, IsDev E → κ0 * ddot E E ≤ ddot E (refStress M.el E))
    (hhi : ∀ E, IsDev E → ddot E (refStress M.el E) ≤ κ * ddot E E)
    (m s : Fin n → Vec 3) (hgeom : M.geom = slipPQ m s)
    (hms : ∀ i, IsSlipSystem (m i) (s i)) {c : ℝ} (hc0 : 0 < c) (hac : Activates m s c) (A : ℝ)
    (hA : RefRateAtMost M.kin A) (hdt : ∀ k < N, 0 < (t.inp k).dt)
    (hd : ∀ k < N, IsDev (devOfSvecP (t.inp k).d)) (hK : ∀ k < N, DissipativeAt M.kin (t.m' k).tkelv)
    {τY γY δ Y : ℝ} (hτ : 0 < τY) (hγ : 0 ≤ γY) (hδ : 0 ≤ δ)
    (hyield : ∀ k < N, YieldsAt M.kin (t.m' k).tkelv (histOf (t.m' k)).h τY γY)
    (F : ℕ → Vec 5) (hF : ∀ k < N, StressFree M (t.inp k) (t.m k) (F k))
    (hload : ∀ k < N, (t.inp k).dt * ((t.inp k).vr 1) ^ (1 / 3 : ℝ) * (Real.sqrt κ * loadRate A (t.inp k) + δ)
        + freeMove M.el F k
      ≤ (t.inp k).dt * ((t.inp k).vr 1) ^ (1 / 3 : ℝ) * (c * Real.sqrt κ0 * γY))
    (hY : ∀ k < N, τY * ((t.inp k).vr 1) ^ (1 / 3 : ℝ) ≤ c * Real.sqrt κ0 * Y) (K : ℕ) (hKN : K < N) :
    energyNorm M.el (vecdToSymm (histOf (t.m' K)).e - vecdToSymm (F K))
      ≤ max Y (energyNorm M.el (vecdToSymm (histOf (t.m 0)).e - vecdToSymm (F 0))
        - δ * ∑ k ∈ Finset.range (K + 1), (t.inp k).dt * ((t.inp k).vr 1) ^ (1 / 3 : ℝ)) := by
  have hsoft : 0 < c * Real.sqrt κ0 := mul_pos hc0 (Real.sqrt_pos.2 hκ0)
  have hpos : ∀ k, 0 < M.el.kDiag k := fun k => hκ0.trans_le (kDiag_ge hlo k)
  have hs : ∀ k, k < N → energyNorm M.el (vecdToSymm (histOf (t.m' k)).e - vecdToSymm (F k)) ≤ max Y
      (energyNorm M.el (vecdToSymm (histOf (t.m k)).e - vecdToSymm (F k)) - freeMove M.el F k
        - δ * ((t.inp k).dt * ((t.inp k).vr 1) ^ (1 / 3 : ℝ))) := by
    intro k hk
    rcases C85_step_any (t.X k) (hX k hk) M hκ0 hlo hhi m s hgeom hms hc0 hac A (t.inp k) (hdt k hk) (hd k hk) _ _
      (t.ok k hk) (fun v sc hv => hA _ _ _ v sc hv) (hK k hk) hτ hγ (hyield k hk) (F k) (hF k hk) with h1 | h1
    · refine le_max_of_le_left (le_of_mul_le_mul_left ?_ hsoft)
      exact h1.le.trans (hY k hk)
    · refine le_max_of_le_right (h1.trans ?_)
      have h3 := hload k hk
      linarith
  have hpos2 : ∀ k, k < N → 0 ≤ (t.inp k).dt * ((t.inp k).vr 1) ^ (1 / 3 : ℝ) := by
    intro k hk
    have hV : 0 < (t.inp k).vr 1 := by
      obtain ⟨s'⟩ := getResponseSngl_ok (t.ok k hk)
      exact s'.hv
    exact mul_nonneg (hdt k hk).le (Real.rpow_nonneg hV.le _)
  induction K with
  | zero => simpa [freeMove] using hs 0 hKN
  | succ K ih =>
    have h1 := hs _ hKN
    have h2 : histOf (t.m (K + 1)) = histOf (t.m' K) := by unfold histOf; rw [t.link K hKN]
    rw [h2] at h1
    rw [Finset.sum_range_succ]
    have h3 := ih (by omega)
    refine h1.trans (max_le (le_max_left _ _) ?_)
    have h4 := mul_nonneg hδ (hpos2 _ hKN)
    have h6 := energyNorm_triangle hpos (histOf (t.m' K)).e (F K) (F (K + 1))
    have h7 : freeMove M.el F (K + 1) = energyNorm M.el (vecdToSymm (F K) - vecdToSymm (F (K + 1))) := rfl
    rcases le_max_iff.1 h3 with h5 | h5
    · exact le_max_of_le_left (by linarith)
    · exact le_max_of_le_right (by linarith)

/-- **C85, stress, any elasticity.** The deviatoric stress after a step is bounded by the distance of the elastic strain from
    the strain without shear stress. -/
theorem C85_stress_any (X : Ext) (M : Material n nH) {κ : ℝ}
    (hst : ∀ E, IsDev E → E ≠ 0 → 0 < ddot E (refStress M.el E))
    (hhi : ∀ E, IsDev E → ddot E (refStress M.el E) ≤ κ * ddot E E)
    (inp : Inputs) (m m' : Mem nH n) (h : getResponseSngl X M inp m = .ok m') (F : Vec 5) (hF : StressFree M inp m F) :
    frob (devOfSvecP m'.stress) * (inp.vr 1 * (inp.vr 1) ^ (1 / 3 : ℝ))
      ≤ Real.sqrt κ * energyNorm M.el (vecdToSymm (histOf m').e - vecdToSymm F) := by
  obtain ⟨s⟩ := getResponseSngl_ok h
  have hPel : s.P.el = M.el := by rw [s.hP]
  have hPv : s.P.detV = inp.vr 1 := by rw [s.hP]
  have he : (histOf m').e = s.P.eF (Step.solve X inp s.P).x := by rw [OkStep.hist_eq s]; rfl
  have hcn : qn s.P.cN = 1 := by rw [s.hP]; exact qn_quatN s.hq
  have hdev := C84_deviator X M inp m m' h
  have hkp : ∀ k, 0 < s.P.el.kDiag k := by rw [hPel]; exact (C47_positive_definite M.el).1 hst
  have hκ : ∀ k, s.P.el.kDiag k ≤ κ := by rw [hPel]; exact kDiag_le hhi
  have hset : Step.setup M inp m = .ok (s.hU, s.P) := by
    rw [Step.setup_eq_ok s.hq s.hcv s.hdt s.hv s.hH s.hV, s.hP]
  have hF' := hF _ _ hset
  rw [frob_eq hdev, vecdToSymm_sub, energyNorm_eq, he, s.hst, ← hPv, ← hPel]
  set x := (Step.solve X inp s.P).x
  set e := s.P.eF x
  have hR := isRot_of_unit (s.P.qn_cQuat hcn x)
  set q := s.P.cQuat x
  have h1 : svecToVecd (Step.stressOf s.P e q)
      = vecsVMa (getRotMatVecd (quatToTensor q)) (fun i : Fin 5 => s.P.elastNEtoC e i.castSucc) := by
    funext i
    rw [show Step.stressOf s.P e q = vecdsToSvecP _ from rfl, (C01_internal_round_trip _).2.2.2.2.1]
    fin_cases i <;> rfl
  have hrot : ∀ v, vecNorm (vecsVMa (getRotMatVecd (quatToTensor q)) v) = vecNorm v := by
    intro v
    have := vecNorm_vecsVMTa_rot (R := (quatToTensor q).transpose) (by
      rw [Matrix.transpose_transpose]; exact mul_eq_one_comm.1 hR.1) v
    rw [getRotMatVecd_transpose] at this
    exact this
  rw [h1, hrot]
  have h2 : ∀ i : Fin 5, s.P.elastNEtoC e i.castSucc = s.P.detVRi * (s.P.aVri * (s.P.el.kDiag i * (e - F) i)) := by
    intro i
    show s.P.detVRi * s.P.elastNEtoT e i.castSucc = _
    have h3 := s.P.elastNEtoT_castSucc e i
    have h4 := s.P.elastNEtoT_castSucc F i
    rw [hF'] at h4
    rw [h3, Pi.sub_apply]
    linear_combination (-s.P.detVRi) * h4
  have hv : 0 < s.P.detV := hPv ▸ s.hv
  have ha := s.P.aV_pos hv
  have h5 : vecNorm (fun i : Fin 5 => s.P.elastNEtoC e i.castSucc) * (s.P.detV * s.P.aV)
      = vecNorm fun i => s.P.el.kDiag i * (e - F) i := by
    have h6 : (fun i => s.P.el.kDiag i * (e - F) i)
        = fun i : Fin 5 => (s.P.detV * s.P.aV) * s.P.elastNEtoC e i.castSucc := by
      funext i
      rw [h2 i]
      unfold Updst.detVRi Updst.aVri
      field_simp
    rw [h6, mul_comm]
    have h7 : 0 ≤ s.P.detV * s.P.aV := (mul_pos hv ha).le
    rw [← sq_eq_sq₀ (mul_nonneg h7 (vecNorm_nonneg _)) (vecNorm_nonneg _), mul_pow, vecNorm_sq, vecNorm_sq, Finset.mul_sum]
    exact Finset.sum_congr rfl fun i _ => by ring
  have h8 : s.P.detV * s.P.detV ^ (1 / 3 : ℝ) = s.P.detV * s.P.aV := rfl
  rw [h8, h5]
  have hκ0 : 0 ≤ κ := (hkp 0).le.trans (hκ 0)
  unfold vecNorm wNorm
  rw [← Real.sqrt_mul hκ0]
  refine Real.sqrt_le_sqrt ?_
  rw [Finset.mul_sum]
  refine Finset.sum_le_sum fun i _ => ?_
  have := mul_le_mul_of_nonneg_right (hκ i) (mul_nonneg (hkp i).le (sq_nonneg ((e - F) i)))
  nlinarith

/-- **C85, stiffness of hexagonal crystals.** The bounds that the theorems ask for, from the elastic constants. -/
theorem C85_hexag_stiffness (c11 c12 c13 c33 c44 g : ℝ) {κ κ0 : ℝ}
    (h : ∀ k, κ0 ≤ (Elast.hexag c11 c12 c13 c33 c44 g).kDiag k ∧ (Elast.hexag c11 c12 c13 c33 c44 g).kDiag k ≤ κ) :
    ∀ E, IsDev E → κ0 * ddot E E ≤ ddot E (refStress (.hexag c11 c12 c13 c33 c44 g) E) ∧
      ddot E (refStress (.hexag c11 c12 c13 c33 c44 g) E) ≤ κ * ddot E E := by
  intro E hE
  rw [← vecdToSymm_symmToVecd E hE]
  generalize symmToVecd E = v
  have e1 : ddot (vecdToSymm v) (refStress (.hexag c11 c12 c13 c33 c44 g) (vecdToSymm v))
      = ∑ k, (Elast.hexag c11 c12 c13 c33 c44 g).kDiag k * v k ^ 2 := by
    simp only [ddot, Fin.sum_univ_three, Fin.sum_univ_five, refStress, hexagStress,
        Elast.kDiag, vecdToSymm, ofSvecP, vecdsToSvecP, Matrix.of_apply, Matrix.cons_val]
    sqr_ring
  have e2 : ddot (vecdToSymm v) (vecdToSymm v) = ∑ k, v k ^ 2 := by
    simp only [ddot, Fin.sum_univ_three, Fin.sum_univ_five, vecdToSymm, ofSvecP, vecdsToSvecP,
      Matrix.of_apply, Matrix.cons_val]
    sqr_ring
  rw [e1, e2, Finset.mul_sum, Finset.mul_sum]
  exact ⟨Finset.sum_le_sum fun k _ => mul_le_mul_of_nonneg_right (h k).1 (sq_nonneg _),
    Finset.sum_le_sum fun k _ => mul_le_mul_of_nonneg_right (h k).2 (sq_nonneg _)⟩

/-! ### A concrete case -/

/-- a hexagonal crystal with the 24 systems and power-law slip -/
noncomputable def hcpMatEx : Material 24 1 where
  geom := slipPQ (hcpMx (8 / 5)) (hcpSx (8 / 5))
  kin := voceExample.kin (idealSolver 1) 24
  el := .hexag 300 100 90 310 80 0
  eos := { isothermal := false, rho0 := 1, bulkMod := 2, cvav := 1, gamma := 1, ec0 := -300 }

/-- a shear strained state of it -/
noncomputable def hcpMemEx : Mem 1 24 where
  eInt := 4
  stress := 0
  hist := (⟨0, 0, 0, 0, ![1 / 10, 0, 0, 0, 0], ![1, 0, 0, 0], fun _ => 1, fun _ => 0⟩ : Hist 1 24).toArray
  tkelv := 300
  sdd := 0
  mtan := none

/-- a step of a slow shear -/
noncomputable def hcpInpEx : Inputs where
  dt := 1
  tol := 1 / 10 ^ 10
  d := ![0, 0, 0, 0, 0, 1 / 1000, 0]
  w := 0
  vr := ![1, 1, 0, 0]

theorem hcpMatEx_stiff : ∀ E, IsDev E → 160 * ddot E E ≤ ddot E (refStress hcpMatEx.el E) ∧
    ddot E (refStress hcpMatEx.el E) ≤ 400 * ddot E E := by
  refine C85_hexag_stiffness 300 100 90 310 80 0 fun k => ?_
  fin_cases k <;> simp [Elast.kDiag] <;> norm_num

/-- hypotheses: that crystal goes through the step, and yields as the theorems ask -/
example : ∃ m s c, slipGeomHCP (8 / 5) = .ok (slipPQ m s) ∧ hcpMatEx.geom = slipPQ m s ∧ 0 < c ∧ Activates m s c ∧
    ∃ mem', getResponseSngl ⟨idealSolver 8, fun _ B => some B, 1⟩ hcpMatEx hcpInpEx hcpMemEx = .ok mem' ∧
      StressFree hcpMatEx hcpInpEx hcpMemEx 0 ∧ YieldsAt hcpMatEx.kin mem'.tkelv (histOf mem').h (3 * 1 ^ voceExample.xm)
        (1 * voceExample.gamW) := by
  obtain ⟨m, s, h1, h2, h3, h4⟩ := C85_hcp (8 / 5) (by norm_num)
  have h1' := h1
  rw [hcpMS_eq (by norm_num)] at h1'
  cases h1'
  have hh : Hist.ofArray hcpMemEx.hist
      = (⟨0, 0, 0, 0, ![1 / 10, 0, 0, 0, 0], ![1, 0, 0, 0], fun _ => 1, fun _ => 0⟩ : Hist 1 24) := Hist.ofArray_toArray _
  have hfree : StressFree hcpMatEx hcpInpEx hcpMemEx 0 := by
    intro hU P hs i
    obtain ⟨kU, v, sc, -, -, -, -, -, -, hP⟩ := Step.setup_ok hs
    rw [hP]
    simp only [Updst.elastNEtoT, Updst.aV, hcpMatEx, hcpInpEx, Elast.eval, vecsVxa, Matrix.cons_val, Real.one_rpow, Real.log_one]
    fin_cases i <;> simp [Elast.gVecd2]
  have hst : ∀ E, IsDev E → E ≠ 0 → 0 < ddot E (refStress hcpMatEx.el E) := by
    refine (C47_positive_definite _).2 fun k => ?_
    exact lt_of_lt_of_le (by norm_num : (0 : ℝ) < 160) (kDiag_ge (fun E hE => (hcpMatEx_stiff E hE).1) k)
  obtain ⟨hU, kU, hH⟩ := C82_strength voceExample rfl (by norm_num [voceExample]) (by norm_num [voceExample])
    (idealSolver 1) (idealSolver_finds 1) (fun _ => 1) 1 zero_le_one (fun _ : Fin 24 => (0 : ℝ))
  have hlow := C62_voce_strength voceExample rfl (by norm_num [voceExample]) (idealSolver 1) (idealSolver_finds 1).sound
    _ _ zero_le_one _ _ _ hH
  have hU1 : 1 / 2 ≤ hU 0 := by
    have e : voceExample.tausi = 1 := rfl
    rw [e, min_self, max_self] at hlow
    linarith
  have hpos : 0 < hU 0 := by linarith
  have hV : hcpMatEx.kin.getVals (Step.eosUpdate hcpMatEx hcpInpEx hcpMemEx).press (Step.tK hcpMatEx hcpInpEx hcpMemEx) hU
      = .ok (hU 0, hU 0) := by
    show (if 0 < hU 0 then (Out.ok (hU 0, hU 0) : Out (ℝ × ℝ)) else _) = _
    rw [if_pos hpos]
    rfl
  have hset := Step.setup_eq_ok (M := hcpMatEx) (inp := hcpInpEx) (m := hcpMemEx) (hU := hU) (kU := kU) (v := hU 0) (scale := hU 0)
    (by rw [hh]; intro h; have := congrFun h 0; simp at this) (by simp [hcpMatEx]) (by simp [hcpInpEx]) (by simp [hcpInpEx])
    (by rw [hh]; exact hH) hV
  obtain ⟨mem', hok⟩ := C72_update hcpMatEx _ _ rfl h3 voceExample (idealSolver 1) rfl (by norm_num [voceExample])
    (by norm_num [voceExample]) 400 hst (fun E hE => (hcpMatEx_stiff E hE).2) hcpInpEx (by norm_num [hcpInpEx])
    (by rw [isDev_iff]; simp [devOfSvecP, hcpInpEx]) hcpMemEx rfl _ _ hset 0 (hfree _ _ hset) (by
      have e1 : energyNorm hcpMatEx.el (vecdToSymm (histOf hcpMemEx).e - vecdToSymm 0) ≤ 10 := by
        unfold histOf
        rw [hh, vecdToSymm_sub, energyNorm_eq]
        unfold wNorm
        rw [Real.sqrt_le_left (by norm_num)]
        simp [Fin.sum_univ_five, hcpMatEx, Elast.kDiag]
        norm_num
      have e0 : 0 ≤ energyNorm hcpMatEx.el (vecdToSymm (histOf hcpMemEx).e - vecdToSymm 0) := Real.sqrt_nonneg _
      have e2 : frob (devOfSvecP hcpInpEx.d) ≤ 1 := by
        unfold frob
        rw [Real.sqrt_le_left (by norm_num)]
        simp [ddot, Fin.sum_univ_three, devOfSvecP, hcpInpEx]
        norm_num
      have e3 : 0 ≤ frob (devOfSvecP hcpInpEx.d) := Real.sqrt_nonneg _
      have e4 : Real.sqrt 400 = 20 := by
        rw [show (400 : ℝ) = 20 ^ 2 by norm_num]; exact Real.sqrt_sq (by norm_num)
      have e5 : hcpInpEx.vr 1 = 1 := rfl
      have e6 : hcpInpEx.dt = 1 := rfl
      have e7 : voceExample.xm = 1 := rfl
      have e8 : voceExample.gamW = 1 := rfl
      rw [e4, e5, e6, e7, e8, Real.one_rpow, Real.rpow_one]
      generalize energyNorm hcpMatEx.el (vecdToSymm (histOf hcpMemEx).e - vecdToSymm 0) = a at *
      generalize frob (devOfSvecP hcpInpEx.d) = b at *
      calc (a + 1 * 1 * (20 * b)) ^ 2 ≤ 30 ^ 2 := by
            refine pow_le_pow_left₀ (by positivity) (by linarith) 2
        _ ≤ 4 * (1 * 1 ^ 2) * (10 ^ 60 * (1 / 2) * (10 ^ 60 * 1)) := by norm_num
        _ ≤ _ := by
          refine mul_le_mul_of_nonneg_left ?_ (by norm_num)
          refine mul_le_mul_of_nonneg_right ?_ (by norm_num)
          exact mul_le_mul_of_nonneg_left hU1 (by norm_num)) (by
      have e1 : len hcpInpEx.w = 0 := by simp [len, dot, hcpInpEx]
      have e2 : hcpInpEx.tol = 1 / 10 ^ 10 := rfl
      rw [e1, e2]
      norm_num) ⟨idealSolver 8, fun _ B => some B, 1⟩ rfl
  have hG : (histOf mem').h 0 ≤ 3 := by
    have h5 := C85_strength (M := hcpMatEx) (k := voceExample) (idealSolver_finds 1) rfl rfl (by norm_num [voceExample]) _ hcpInpEx
      (by norm_num [hcpInpEx]) hcpMemEx mem' hok (g := 2) (by unfold histOf; rw [hh]; norm_num) (by
        unfold histOf
        rw [hh]
        unfold voceSat
        rw [if_neg (by simp)]
        norm_num [voceExample])
    refine h5.trans ?_
    unfold histOf
    rw [hh]
    norm_num
  refine ⟨_, _, _, h2, rfl, ?_, h4, mem', hok, hfree, ?_⟩
  · exact one_div_pos.2 (Real.sqrt_pos.2 (by norm_num))
  · exact C85_voce voceExample (by norm_num [voceExample]) (by norm_num [voceExample]) _ _ _ hG (by norm_num) (by norm_num)

end Ecm.Props
