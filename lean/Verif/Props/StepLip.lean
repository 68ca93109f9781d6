/- Property theorems C111: how one update depends on the loading of its step, and the tangent in the direction of
   volume (src/ecmech/ECMech_evptn.h, computeRJ and getResponseSngl). -/
import Verif.Lemmas.StepLip
import Verif.Lemmas.RotRoundAux
import Verif.Props.UniqueStep
import Verif.Props.NewtonMatrix
import Verif.Props.Moduli
import Verif.Props.Tangent
import Verif.Props.TestStep
import Verif.Props.FirstLaw

namespace Ecm.Props
open Ecm Spec Matrix

variable {n nH : ℕ}

/-- the kinetics make no use of the pressure -/
def PressureFree (K : Kin n nH) : Prop := ∀ p p' T h, K.getVals p T h = K.getVals p' T h

/-- C111 the power-law kinetics -/
theorem C111_voce (k : Voce) (S : Solver 1) : PressureFree (k.kin S n) := fun _ _ _ _ => rfl

/-- C111 the dislocation kinetics -/
theorem C111_kmbald {nV : ℕ} [NeZero nV] (k : KMBalD nV) (S : Solver 1) : PressureFree (k.kin S n) :=
  fun _ _ _ _ => rfl

/-- how far the lattice rotations of two steps can differ whose rates differ by `ρ` and spins by `σ` -/
noncomputable def rotGain (dt b ρ σ e : ℝ) : ℝ := 8 / 10 ^ 90 + 2 * dt * (σ + b * (ρ + e) + e)

/-- how far the rates seen from the lattice can differ -/
noncomputable def rateGain (D δ ρ e : ℝ) : ℝ := 3 * D * (δ + 8 / 10 ^ 90) + ρ + e

theorem frob_shape (v : ℝ) (m : Mem nH n) :
    frob (shapeStrain v m) = vecNorm ((1 / v ^ (1 / 3 : ℝ)) • (histOf m).e) := by
  rw [frob_vecd (shapeStrain_dev v m), shapeStrain, symmToVecd_smul, symmToVecd_vecdToSymm]

set_option maxHeartbeats 800000 in
/-- **C111.** Two updates from the same memory with steps of the same length but different rates, spins and (for the
    cubic class) volumes.  Hardening states and temperatures are the same.  If the first step is short on the scale of
    its rate and spin, then lattice orientations, elastic strains and slip rates differ by no more than a multiple of
    the differences of the loadings, up to what the tolerance allows.  The multiple does not depend on the slip law:
    it may be as steep as it likes. -/
theorem C111_step (X Y : Ext) (hX : X.solver.Sound) (hY : Y.solver.Sound) (M : Material n nH)
    (hfree : PressureFree M.kin)
    (mS sS : Fin n → V3) (hgeom : M.geom = slipPQ mS sS) (hsys : ∀ i, IsSlipSystem (mS i) (sS i))
    (K : ℝ) (hK : 0 ≤ K) (hSC : SlipControl mS sS K) (κ₀ κ : ℝ) (hκ₀ : 0 < κ₀)
    (h0 : ∀ E, IsDev E → κ₀ * ddot E E ≤ ddot E (refStress M.el E))
    (h1 : ∀ E, IsDev E → ddot E (refStress M.el E) ≤ κ * ddot E E)
    (inp inp2 : Inputs) (hdt : 0 < inp.dt) (hdt2 : inp2.dt = inp.dt)
    (hvol : inp2.vr = inp.vr ∨ ∃ c11 c12 c44, M.el = .cubic c11 c12 c44)
    (hd : IsDev (devOfSvecP inp.d)) (hd2 : IsDev (devOfSvecP inp2.d)) (m m1 m2 : Mem nH n)
    (ok1 : getResponseSngl X M inp m = .ok m1) (ok2 : getResponseSngl Y M inp2 m = .ok m2)
    (A B ε : ℝ) (hε : 0 ≤ ε) (hlaw : TameAt M.kin m1.tkelv (histOf m1).h A B ε)
    (hB1 : ∀ i, |(histOf m1).gdot i| < B) (hB2 : ∀ i, |(histOf m2).gdot i| < B)
    (b : ℝ) (hb : b = spinGain K (κ / κ₀) (len (histOf m).e) ((inp.vr 1) ^ (1 / 3 : ℝ)))
    (hsmall : inp.dt * (3 / 2 * len inp.w + 3 * b * frob (devOfSvecP inp.d)) ≤ 1 / 2)
    (θ da ρ σ δ φ : ℝ) (hθ1 : tolRate inp.tol A (frob (devOfSvecP inp.d)) inp.dt ≤ θ)
    (hθ2 : tolRate inp2.tol A (frob (devOfSvecP inp2.d)) inp.dt ≤ θ)
    (hda : da = |1 / (inp.vr 1) ^ (1 / 3 : ℝ) - 1 / (inp2.vr 1) ^ (1 / 3 : ℝ)|)
    (hρ : frob (devOfSvecP inp.d - devOfSvecP inp2.d) + da * len (histOf m).e / inp.dt + 2 * θ ≤ ρ)
    (hσ : len (inp.w - inp2.w) + da * len (histOf m).e * frob (shapeStrain (inp2.vr 1) m2) / inp.dt
      + 4 * θ ≤ σ)
    (hδ : δ = rotGain inp.dt b ρ σ (n * ε)) (hφ : φ = rateGain (frob (devOfSvecP inp.d)) δ ρ (n * ε)) :
    (histOf m1).h = (histOf m2).h ∧ m1.tkelv = m2.tkelv ∧
    frob (quatToTensor (histOf m1).q - quatToTensor (histOf m2).q) ≤ 3 / 2 * δ + 12 / 10 ^ 90 ∧
    frob (shapeStrain (inp.vr 1) m1 - shapeStrain (inp2.vr 1) m2)
      ≤ inp.dt * (Real.sqrt (κ / κ₀) * φ) ∧
    ∑ i, |(histOf m1).gdot i - (histOf m2).gdot i| ≤ K * ((1 + Real.sqrt (κ / κ₀)) * φ) + n * ε := by
  obtain ⟨s⟩ := getResponseSngl_ok ok1
  obtain ⟨t⟩ := getResponseSngl_ok ok2
  have hUU : s.hU = t.hU := by
    have h1 := s.hH; rw [← hdt2, t.hH] at h1
    exact ((Prod.mk.inj (Out.ok.inj h1)).1).symm
  have htk : Step.tK M inp2 m = Step.tK M inp m := by
    unfold Step.tK Eos.evalPT
    split_ifs <;> rfl
  have hVV : t.v = s.v := by
    have h2 := s.hV
    rw [hfree _ (Step.eosUpdate M inp2 m).press, ← htk, hUU, t.hV] at h2
    exact (Prod.mk.inj (Out.ok.inj h2)).1
  have res : ∀ (Z : Ext) (hZ : Z.solver.Sound) (i' : Inputs) (m' : Mem nH n) (u : OkStep Z M i' m m'),
      (histOf m').e = u.P.eF (Step.solve Z i' u.P).x ∧
      (histOf m').gdot = u.P.gdot (Step.solve Z i' u.P).x ∧
      quatToTensor (histOf m').q = u.P.cMatx (Step.solve Z i' u.P).x ∧
      vecNorm (u.P.resid (Step.solve Z i' u.P).x) ≤ i'.tol := by
    intro Z hZ i' m' u
    have hlast : Step.lastX (Step.solve Z i' u.P) m.mtan.isSome = (Step.solve Z i' u.P).x := by
      unfold Step.lastX
      split_ifs
      · rfl
      · exact (hZ _ _ _ _ u.hc).2
    refine ⟨by rw [OkStep.hist_eq u]; rfl, ?_, ?_, ?_⟩
    · rw [OkStep.hist_eq u, ← hlast]; rfl
    · rw [OkStep.hist_eq u]; exact quatToTensor_flip _ _
    · obtain ⟨⟨r, J, hr, hrt⟩, -⟩ := hZ _ _ _ _ u.hc
      have : some (u.P.resid (Step.solve Z i' u.P).x, _) = some (r, J) := hr
      rwa [← (Prod.mk.inj (Option.some.inj this)).1] at hrt
  have hh1 : (histOf m1).h = s.hU := by rw [OkStep.hist_eq s]; rfl
  have hh2 : (histOf m2).h = t.hU := by rw [OkStep.hist_eq t]; rfl
  obtain ⟨e1, g1, q1, r1⟩ := res X hX inp m1 s
  obtain ⟨e2, g2, q2, r2⟩ := res Y hY inp2 m2 t
  generalize (Step.solve X inp s.P).x = x at e1 g1 q1 r1
  generalize (Step.solve Y inp2 t.P).x = y at e2 g2 q2 r2
  have hPel : s.P.el = M.el := by rw [s.hP]
  have hPdt : s.P.dt = inp.dt := by rw [s.hP]
  have hPv : s.P.detV = inp.vr 1 := by rw [s.hP]
  have hPd : s.P.dSm = svecToVecd inp.d := by rw [s.hP]
  have hPw : s.P.wSm = inp.w := by rw [s.hP]
  have hPe : s.P.eN = (histOf m).e := by rw [s.hP]
  have hPg : s.P.geom = slipPQ mS sS := by rw [s.hP]; exact hgeom
  have hPa : s.P.adotsRef = M.kin.fixedRefRate s.v := by rw [s.hP]
  have hgd : s.P.gd = M.kin.evalGdot s.v := by rw [s.hP]
  have hcn : qn s.P.cN = 1 := by rw [s.hP]; exact qn_quatN s.hq
  have hTdt : t.P.dt = inp.dt := by rw [t.hP]; exact hdt2
  have hTv : t.P.detV = inp2.vr 1 := by rw [t.hP]
  have hTd : t.P.dSm = svecToVecd inp2.d := by rw [t.hP]
  have hTw : t.P.wSm = inp2.w := by rw [t.hP]
  have hTa : t.P.adotsRef = M.kin.fixedRefRate s.v := by rw [t.hP, hVV]
  have hTgd : t.P.gd = M.kin.evalGdot s.v := by rw [t.hP, hVV]
  have alike : Updst.Alike s.P t.P := by
    refine ⟨by rw [s.hP, t.hP], by rw [s.hP, t.hP], by rw [hgd, hTgd], by rw [hPa, hTa], by rw [hPdt, hTdt],
      by rw [s.hP, t.hP], by rw [s.hP, t.hP], fun i => ?_⟩
    rcases hvol with hvr | ⟨c11, c12, c44, hel⟩
    · have he : Step.eosUpdate M inp2 m = Step.eosUpdate M inp m := by simp only [Step.eosUpdate, hvr]
      simp only [Updst.tConst, Updst.aV, s.hP, t.hP, he, hvr]
    · simp only [Updst.tConst, Updst.aV, s.hP, t.hP, hel, Elast.eval]
      fin_cases i <;> simp
  have hlaw' := hlaw
  rw [s.htk, hh1] at hlaw
  obtain ⟨⟨ha0, ha1⟩, hmono⟩ := hlaw _ _ _ s.hV
  have hdD : frob (devOfSvecP inp.d) = vecNorm s.P.dSm := by rw [hPd]; exact frob_eq hd
  have hdD2 : frob (devOfSvecP inp2.d) = vecNorm t.P.dSm := by rw [hTd]; exact frob_eq hd2
  have hdd : frob (devOfSvecP inp.d - devOfSvecP inp2.d) = vecNorm (s.P.dSm - t.P.dSm) := by
    rw [hPd, hTd]
    have e : devOfSvecP inp.d - devOfSvecP inp2.d = devOfSvecP (inp.d - inp2.d) := by
      ext i j; fin_cases i <;> fin_cases j <;> simp [devOfSvecP]
    have e' : svecToVecd inp.d - svecToVecd inp2.d = svecToVecd (inp.d - inp2.d) := by
      ext i; fin_cases i <;> simp [svecToVecd] <;> ring
    rw [e, e']
    exact frob_eq (by rw [← e]; exact isDev_sub hd hd2)
  have htol : 0 ≤ inp.tol := (vecNorm_nonneg _).trans r1
  have htol2 : 0 ≤ inp2.tol := (vecNorm_nonneg _).trans r2
  have hcol := fun i => slip_columns hsys i
  rw [hdD] at hsmall hφ hθ1
  rw [hdD2] at hθ2
  rw [hdd] at hρ
  have hA1 : inp.tol * (s.P.adotsRef + vecNorm s.P.dSm + 1 / 10 ^ 6 / s.P.dt) ≤ θ := by
    refine le_trans ?_ hθ1
    rw [tolRate, hPdt, hPa]
    exact mul_le_mul_of_nonneg_left (by linarith) htol
  have hA2 : inp2.tol * (t.P.adotsRef + vecNorm t.P.dSm + 1 / 10 ^ 6 / t.P.dt) ≤ θ := by
    refine le_trans ?_ hθ2
    rw [tolRate, hTdt, hTa]
    exact mul_le_mul_of_nonneg_left (by linarith) htol2
  have hRot : ∀ (Q : Updst n) (z : Vec 8) (tol : ℝ), 0 < Q.dt → 0 < Q.adotsRef → vecNorm (Q.resid z) ≤ tol →
      tol * (Q.adotsRef + vecNorm Q.dSm + 1 / 10 ^ 6 / Q.dt) ≤ θ → vecNorm ((1 / Q.dt) • Q.residR z) ≤ 2 * θ := by
    intro Q z tol hQ ha hz hθ
    have h0 : 0 ≤ θ := by
      refine le_trans (mul_nonneg ((vecNorm_nonneg _).trans hz) ?_) hθ
      have := vecNorm_nonneg Q.dSm
      positivity
    rw [vecNorm_smul, abs_of_pos (one_div_pos.2 hQ), one_div, inv_mul_le_iff₀ hQ]
    refine abs_le_of_sq_le_sq' ?_ (by positivity) |>.2
    rw [vecNorm_sq, Fin.sum_univ_three]
    have h : ∀ i, Q.residR z i ^ 2 ≤ (Q.dt * θ) ^ 2 := fun i => by
      rw [← sq_abs]
      exact pow_le_pow_left₀ (abs_nonneg _)
        ((Q.residR_le hQ ha hz i).trans (mul_le_mul_of_nonneg_left hθ hQ.le)) 2
    nlinarith [h 0, h 1, h 2, sq_nonneg (Q.dt * θ)]
  have hSdt : 0 < s.P.dt := hPdt ▸ hdt
  have hTdt' : 0 < t.P.dt := hTdt ▸ hdt
  have hSa : 0 < s.P.adotsRef := hPa ▸ ha0
  have hTa' : 0 < t.P.adotsRef := hTa ▸ ha0
  have hri1 : s.P.aVri = 1 / (inp.vr 1) ^ (1 / 3 : ℝ) := by rw [Updst.aVri, Updst.aV, hPv]
  have hri2 : t.P.aVri = 1 / (inp2.vr 1) ^ (1 / 3 : ℝ) := by rw [Updst.aVri, Updst.aV, hTv]
  have hda' : |s.P.aVri - t.P.aVri| = da := by rw [hri1, hri2, hda]
  have hE2 : vecNorm (t.P.aVri • t.P.eF y) = frob (shapeStrain (inp2.vr 1) m2) := by
    rw [frob_shape, e2, hri2]
  have key := Updst.agree_load (P := s.P) (P₂ := t.P) (x := x) (y := y) (θ := θ) alike hκ₀
    (by rw [hPel]; exact le_kDiag h0)
    (by rw [hPel]; exact kDiag_le h1)
    hSdt (hPv ▸ s.hv) (hTv ▸ t.hv) hcn
    (by rw [hPg]; exact (slipControl_iff (fun i => (hsys i).2.2) K).1 hSC) hK
    (by rw [hPg]; exact fun i => (hcol i).1) (by rw [hPg]; exact fun i => (hcol i).2) hε
    ((s.P.residE_le hSdt hSa r1).trans hA1) ((t.P.residE_le hTdt' hTa' r2).trans hA2)
    (hRot s.P x _ hSdt hSa r1 hA1)
    (by rw [hPdt, ← hTdt]; exact hRot t.P y _ hTdt' hTa' r2 hA2)
    (fun i hle => by
      have b1 := hB1 i; have b2 := hB2 i
      rw [g1] at b1; rw [g2] at b2
      simp only [Updst.gdot, hgd, hTgd] at b1 b2 ⊢
      exact hmono i _ _ b1 b2 hle)
    (fun i hle => by
      have b1 := hB1 i; have b2 := hB2 i
      rw [g1] at b1; rw [g2] at b2
      simp only [Updst.gdot, hgd, hTgd] at b1 b2 ⊢
      exact hmono i _ _ b2 b1 hle)
    b (by rw [hb, hPe, spinGain, Updst.aV, hPv]; rfl)
    (by rw [hPdt, hPw]; exact hsmall) ρ σ δ φ
    (by rw [hda', hPe, hPdt]; exact hρ)
    (by rw [hda', hPe, hPdt, hPw, hTw, hE2]; exact hσ)
    (by rw [hδ, rotGain, hPdt]) (by rw [hφ, rateGain])
  obtain ⟨k1, k2, k3⟩ := key
  refine ⟨by rw [hh1, hh2, hUU], by rw [s.htk, t.htk, htk], ?_, ?_, ?_⟩
  · rw [q1, q2]
    have hc : t.P.cMatx y = s.P.cMatx (s.P.carry t.P y) := (Updst.carry_cMatx alike y).symm
    rw [hc]
    have hl := s.P.cMatx_lip hcn x (s.P.carry t.P y)
    rw [Updst.carry_xiF] at hl
    clear hρ hσ hδ hφ hsmall hA1 hA2 hθ1 hθ2 k2 k3 h0 h1 hB1 hB2 hmono res
    linarith
  · rw [frob_vecd (isDev_sub (shapeStrain_dev _ _) (shapeStrain_dev _ _)), ← Ecm.Props.symmToVecd_sub, shapeStrain, shapeStrain,
      symmToVecd_smul, symmToVecd_smul, symmToVecd_vecdToSymm, symmToVecd_vecdToSymm, e1, e2, ← hri1, ← hri2, ← hPdt]
    exact k2
  · rw [g1, g2]
    exact k3

/-- the stress of a cubic crystal is linear in the elastic strain, with the largest stiffness as its norm -/
theorem cubic_gain {c11 c12 c44 κ : ℝ} (hκ0 : ∀ k, 0 ≤ (Elast.cubic c11 c12 c44).kDiag k)
    (hκ : ∀ k, (Elast.cubic c11 c12 c44).kDiag k ≤ κ) {E : T3} (hE : IsDev E) :
    frob (dev (refStress (.cubic c11 c12 c44) E)) ≤ κ * frob E := by
  have hk : 0 ≤ κ := (hκ0 0).trans (hκ 0)
  have e := vecdToSymm_symmToVecd E hE
  have hd : IsDev (dev (refStress (.cubic c11 c12 c44) E)) := by
    have e1 := hE.1.apply 0 1
    have e2 := hE.1.apply 0 2
    have e3 := hE.1.apply 1 2
    rw [isDev_iff]
    simp [dev, refStress, cubicStress, Matrix.trace_fin_three, e1, e2, e3]
    ring
  rw [frob_vecd hd, frob_vecd hE]
  have h1 : symmToVecd (dev (refStress (.cubic c11 c12 c44) E))
      = fun k => (Elast.cubic c11 c12 c44).kDiag k * symmToVecd E k := by
    have ht := hE.2
    rw [Matrix.trace_fin_three] at ht
    ext k
    fin_cases k <;>
      simp [symmToVecd, dev, refStress, cubicStress, Matrix.trace_fin_three, Elast.kDiag]
    all_goals ring
  rw [h1]
  refine abs_le_of_sq_le_sq' ?_ (mul_nonneg hk (vecNorm_nonneg _)) |>.2
  rw [mul_pow, vecNorm_sq, vecNorm_sq, Finset.mul_sum]
  refine Finset.sum_le_sum fun k _ => ?_
  rw [mul_pow]
  exact mul_le_mul_of_nonneg_right (pow_le_pow_left₀ (hκ0 k) (hκ k) 2) (sq_nonneg _)

/-- **C111, stress.** For a cubic crystal the difference of the deviatoric stresses of two updates, times the volumes,
    is bounded by the differences of the elastic strains and of the lattice orientations. -/
theorem C111_stress (X Y : Ext) (M : Material n nH) (c11 c12 c44 : ℝ) (hel : M.el = .cubic c11 c12 c44)
    (hc : c12 < c11 ∧ 0 < c44) (inp inp2 : Inputs) (m m₂ m1 m2 : Mem nH n)
    (ok1 : getResponseSngl X M inp m = .ok m1) (ok2 : getResponseSngl Y M inp2 m₂ = .ok m2) :
    frob (inp.vr 1 • devOfSvecP m1.stress - inp2.vr 1 • devOfSvecP m2.stress)
      ≤ stiff c11 c12 c44 * (frob (shapeStrain (inp.vr 1) m1 - shapeStrain (inp2.vr 1) m2)
        + 2 * frob (quatToTensor (histOf m1).q - quatToTensor (histOf m2).q) * frob (shapeStrain (inp2.vr 1) m2)) := by
  have hkp : ∀ k, 0 < (Elast.cubic c11 c12 c44).kDiag k := ((C47_stability_constants c11 c12 0 0 c44 0).1).2 hc
  have hκ : ∀ k, (Elast.cubic c11 c12 c44).kDiag k ≤ stiff c11 c12 c44 := by
    intro k
    unfold stiff
    fin_cases k <;> simp [Elast.kDiag]
  have v1 : inp.vr 1 ≠ 0 := by obtain ⟨s⟩ := getResponseSngl_ok ok1; exact s.hv.ne'
  have v2 : inp2.vr 1 ≠ 0 := by obtain ⟨s⟩ := getResponseSngl_ok ok2; exact s.hv.ne'
  have r1 := (C03_unit_quaternion_is_rotation _ (C07_step X M inp m m1 ok1).1).1
  have r2 := (C03_unit_quaternion_is_rotation _ (C07_step Y M inp2 m₂ m2 ok2).1).1
  rw [C94_stress X M c11 c12 c44 hel inp m m1 ok1, C94_stress Y M c11 c12 c44 hel inp2 m₂ m2 ok2]
  unfold stateS latS
  rw [hel]
  have d1 := shapeStrain_dev (inp.vr 1) m1
  have d2 := shapeStrain_dev (inp2.vr 1) m2
  generalize shapeStrain (inp.vr 1) m1 = E1 at *
  generalize shapeStrain (inp2.vr 1) m2 = E2 at *
  generalize quatToTensor (histOf m1).q = R1 at *
  generalize quatToTensor (histOf m2).q = R2 at *
  set L := fun E => dev (refStress (.cubic c11 c12 c44) E) with hL
  have hsub : L E1 - L E2 = L (E1 - E2) := by
    ext i j
    fin_cases i <;> fin_cases j <;> simp [hL, dev, refStress, cubicStress, Matrix.trace_fin_three] <;> ring
  have e : inp.vr 1 • (R1 * ((1 / inp.vr 1) • L E1) * R1.transpose)
        - inp2.vr 1 • (R2 * ((1 / inp2.vr 1) • L E2) * R2.transpose)
      = R1 * L (E1 - E2) * R1.transpose + (R1 * L E2 * R1.transpose - R2 * L E2 * R2.transpose) := by
    rw [← hsub, Matrix.mul_smul, Matrix.mul_smul, Matrix.smul_mul, Matrix.smul_mul, smul_smul, smul_smul,
      mul_one_div_cancel v1, mul_one_div_cancel v2, one_smul, one_smul, Matrix.mul_sub, Matrix.sub_mul]
    abel
  have e' : inp.vr 1 • (R1 * ((1 / inp.vr 1) • dev (refStress (.cubic c11 c12 c44) E1)) * R1.transpose)
        - inp2.vr 1 • (R2 * ((1 / inp2.vr 1) • dev (refStress (.cubic c11 c12 c44) E2)) * R2.transpose)
      = R1 * L (E1 - E2) * R1.transpose + (R1 * L E2 * R1.transpose - R2 * L E2 * R2.transpose) := e
  rw [e']
  refine (frob_add_le _ _).trans ?_
  have hc1 : frob (R1 * L (E1 - E2) * R1.transpose) = frob (L (E1 - E2)) := by
    have t1 : R1.transpose * R1.transpose.transpose = 1 := by rw [Matrix.transpose_transpose]; exact r1.2.1
    rw [frob_mul_rot t1, ← frob_transpose, Matrix.transpose_mul, frob_mul_rot t1, frob_transpose]
  rw [hc1]
  have g1 := cubic_gain (fun k => (hkp k).le) hκ (isDev_sub d1 d2)
  have g2 := cubic_gain (fun k => (hkp k).le) hκ d2
  have g3 := frob_conj_sub (T := L E2) r1 r2
  have f := frob_nonneg (R1 - R2)
  have g4 := mul_le_mul_of_nonneg_left g2 (by positivity : 0 ≤ 2 * frob (R1 - R2))
  have g5 : 2 * frob (R1 - R2) * frob (L E2) ≤ 2 * frob (R1 - R2) * (stiff c11 c12 c44 * frob E2) := g4
  have g6 : frob (L (E1 - E2)) ≤ stiff c11 c12 c44 * frob (E1 - E2) := g1
  linarith

/-- **C111, pressure.** A cubic crystal from one memory, with steps that end at different volumes.  The pressure falls
    with the volume by the returned bulk modulus over the volume, wherever this modulus is above its floor: the mean
    stress of the tangent, which is this modulus, is the derivative. -/
theorem C111_pressure (X : Ext) (M : Material n nH) (c11 c12 c44 : ℝ) (hel : M.el = .cubic c11 c12 c44)
    (inp : ℝ → Inputs) (v0 v1 : ℝ) (hvr : ∀ v, (inp v).vr 1 = v ∧ (inp v).vr 3 = v - v0) (m : Mem nH n)
    (m' : ℝ → Mem nH n) (ok : ∀ᶠ v in nhds v1, getResponseSngl X M (inp v) m = .ok (m' v))
    (hfloor : 1 / 10 ^ 5 * M.eos.bulkMod < (m' v1).sdd 0) :
    HasDerivAt (fun v => (m' v).stress 6) (-((m' v1).sdd 0) / v1) v1 := by
  have ok1 := ok.self_of_nhds
  obtain ⟨dp, h1, h2⟩ := C66_bulk X M (inp v1) m (m' v1) ok1
  have hv : 0 < v1 := by
    obtain ⟨s⟩ := getResponseSngl_ok ok1
    have := s.hv
    rwa [(hvr v1).1] at this
  rw [(hvr v1).1, (hvr v1).2] at h1
  rw [(hvr v1).1] at h2
  rw [h2] at hfloor
  have h3 : (m' v1).sdd 0 = -v1 * dp := by
    rw [h2, max_eq_right]
    by_contra hh
    push Not at hh
    rw [max_eq_left hh.le] at hfloor
    exact lt_irrefl _ hfloor
  have h4 : -((m' v1).sdd 0) / v1 = dp := by rw [h3]; field_simp
  rw [h4]
  refine h1.congr_of_eventuallyEq (ok.mono fun v hv => ?_)
  show (m' v).stress 6 = _
  rw [C22_cubic X M (inp v) m (m' v) c11 c12 c44 hel hv, (hvr v).1, (hvr v).2]
  congr 2
  ring

/-- a step of the material of the tests in which only the volume changes, from 1 to `v` -/
noncomputable def swellInp (v : ℝ) : Inputs where
  dt := 1 / 10
  tol := 1 / 10 ^ 10
  d := 0
  w := 0
  vr := ![1, v, (v - 1) / (1 / 10 * (1 / 2 * (1 + v))), v - 1]

/-- the crystal before the step: a small elastic strain along the cube axis with its stress, hardness 1/1000 -/
noncomputable def swellMem (t : Option (Mat 6 6)) : Mem 1 12 where
  eInt := 0
  stress := fun i => 2 / 10 ^ 5 * sqr2b3 * (![-1 / 2, -1 / 2, 1, 0, 0, 0, 0] : Vec 7) i
  hist := ({ shrateEff := 0, shrEff := 0, flowStr := 0, nFEval := 0, e := ![0, 1 / 10 ^ 5, 0, 0, 0], q := ![1, 0, 0, 0],
             h := fun _ => 1 / 1000, gdot := 0 } : Hist 1 12).toArray
  tkelv := 300
  sdd := 0
  mtan := t

noncomputable def swellExt : Ext where
  solver := probe 8
  lup := idealLup
  evalCost := 1

/-- the memory after the step -/
noncomputable def swellOut (v : ℝ) : Mem 1 12 :=
  match getResponseSngl swellExt testMatA (swellInp v) (swellMem (some 0)) with
  | .ok m' => m'
  | _ => swellMem none

theorem swell_hist (t : Option (Mat 6 6)) : Hist.ofArray (swellMem t).hist
    = ({ shrateEff := 0, shrEff := 0, flowStr := 0, nFEval := 0, e := ![0, 1 / 10 ^ 5, 0, 0, 0], q := ![1, 0, 0, 0],
         h := fun _ => 1 / 1000, gdot := 0 } : Hist 1 12) := Hist.ofArray_toArray _

theorem swell_slip {P : Updst 12} (hg : P.geom = slipPQ fccM fccS) (hel : P.el = .cubic 3 1 1)
    (hgd : P.gd = fun _ => (testVoce false).evalGdot (1 / 1000)) (he : P.eN = ![0, 1 / 10 ^ 5, 0, 0, 0])
    (hv : 1 / 2 ≤ P.detV) : P.gdot 0 = 0 := by
  funext s
  show (P.gd s (P.taua 0 s)).gdot = 0
  rw [hgd]
  refine ((C24_sign (testVoce false) (by norm_num [testVoce]) (by norm_num [testVoce]) (1 / 1000) _ (by norm_num)).1).2 ?_
  have h1 : P.taua 0 s = P.aVri * (2 / 10 ^ 5 * P.geom.P 1 s) := by
    rw [P.taua_cubic hel, Updst.eF_zero, he, hel]
    simp [Fin.sum_univ_five, Elast.kDiag]
    exact Or.inl (Or.inl (by ring))
  have h2 : |P.geom.P 1 s| ≤ 1 := by
    rw [hg]
    exact (abs_le_vecNormN (fun k => (slipPQ fccM fccS).P k s) 1).trans (slip_columns fcc_slip s).1
  have h3 : |P.aVri| ≤ 2 := by
    have ha : 1 / 2 ≤ P.aV := by
      unfold Updst.aV
      rcases le_total P.detV 1 with h | h
      · have := Real.rpow_le_rpow_of_exponent_ge (by linarith) h (by norm_num : (1 / 3 : ℝ) ≤ 1)
        rw [Real.rpow_one] at this
        linarith
      · have := Real.one_le_rpow h (by norm_num : (0 : ℝ) ≤ 1 / 3)
        linarith
    unfold Updst.aVri
    rw [abs_of_pos (by positivity), div_le_iff₀ (by linarith)]
    linarith
  have h4 : |P.taua 0 s| ≤ 4 / 10 ^ 5 := by
    rw [h1, abs_mul, abs_mul, abs_of_pos (by norm_num : (0 : ℝ) < 2 / 10 ^ 5)]
    have := mul_le_mul h3 (mul_le_mul_of_nonneg_left h2 (by norm_num : (0 : ℝ) ≤ 2 / 10 ^ 5)) (by positivity) (by norm_num)
    linarith
  have h5 : (1 / 10 : ℝ) ≤ (1 / 10 ^ 60 : ℝ) ^ (testVoce false).xm := by
    show (1 / 10 : ℝ) ≤ (1 / 10 ^ 60 : ℝ) ^ (1 / 100 : ℝ)
    have e : ((1 / 10 : ℝ) ^ 100) ^ (1 / 100 : ℝ) = 1 / 10 := by
      rw [← Real.rpow_natCast, ← Real.rpow_mul (by norm_num)]
      norm_num
    rw [← e]
    exact Real.rpow_le_rpow (by positivity) (by norm_num) (by norm_num)
  refine le_trans ?_ h5
  rw [div_le_iff₀ (by norm_num)]
  linarith

theorem testMatA_ddot (E : T3) (hE : IsDev E) : ddot E (refStress testMatA.el E) = 2 * ddot E E := exEl_ddot E hE

/-- the step succeeds, with and without the tangent -/
theorem swell_ok {v : ℝ} (hv : 1 / 2 ≤ v) :
    (∃ m', getResponseSngl swellExt testMatA (swellInp v) (swellMem none) = .ok m') ∧
    getResponseSngl swellExt testMatA (swellInp v) (swellMem (some 0)) = .ok (swellOut v) := by
  have hvals : ∀ p T, testMatA.kin.getVals p T (fun _ => (1 / 1000 : ℝ)) = .ok ((1 / 1000 : ℝ), (1 / 1000 : ℝ)) := by
    intro p T
    show (if 0 < (1 / 1000 : ℝ) then Out.ok ((1 / 1000 : ℝ), (1 / 1000 : ℝ)) else .undef "assert(vals[0] > zero)") = _
    exact if_pos (by norm_num)
  have hset := Step.setup_eq_ok (M := testMatA) (inp := swellInp v) (m := swellMem none) (hU := fun _ => 1 / 1000) (kU := 1)
    (v := (1 / 1000 : ℝ)) (scale := (1 / 1000 : ℝ)) (by
      rw [swell_hist]
      intro h; simpa using congrFun h 0) (by norm_num [testMatA, testEos]) (by norm_num [swellInp])
    (by simp [swellInp]; linarith) (by
      rw [swell_hist]
      exact voce_rest (testVoce false) rfl (by norm_num [testVoce]) (fun _ => 1 / 1000) _) (hvals _ _)
  rw [swell_hist] at hset
  set P : Updst 12 := { geom := testMatA.geom, el := testMatA.el, gd := testMatA.kin.evalGdot (1 / 1000 : ℝ),
                        adotsRef := testMatA.kin.fixedRefRate (1 / 1000 : ℝ), hdnScale := 1 / 1000,
                        dt := (swellInp v).dt, detV := (swellInp v).vr 1,
                        eVref := (Step.eosUpdate testMatA (swellInp v) (swellMem none)).eNew,
                        pEos := (Step.eosUpdate testMatA (swellInp v) (swellMem none)).press,
                        tK := Step.tK testMatA (swellInp v) (swellMem none),
                        eN := ![0, 1 / 10 ^ 5, 0, 0, 0], cN := Step.quatN (swellMem none),
                        dSm := svecToVecd (swellInp v).d, wSm := (swellInp v).w } with hP
  have hg : P.gdot 0 = 0 := swell_slip rfl rfl rfl rfl (by simpa [hP, swellInp] using hv)
  have hd0 : P.dSm = 0 := by
    funext i; fin_cases i <;> simp [hP, swellInp, svecToVecd]
  have hw0 : P.wSm = 0 := rfl
  have hres : P.resid 0 = 0 := by
    refine (Updst.resid_eq_zero _ (by norm_num [hP, swellInp]) (by
      show 0 < (testVoce false).gamW
      norm_num [testVoce]) _).2 ⟨?_, ?_⟩
    · funext i
      simp only [Updst.residE, hg, Updst.edot_zero, hd0]
      fin_cases i <;> simp [vecsVMa, vecsVMTa]
    · funext i
      simp only [Updst.residR, hg, Updst.edot_zero, hw0, Updst.xiF_zero]
      fin_cases i <;> simp [vecsVMa, vecsVMTa]
  have hsol : Step.solve swellExt (swellInp v) P = { converged := true, x := 0, xLast := 0, nFEvals := 1 } := by
    show probe 8 P.problem (swellInp v).tol 200 0 = _
    refine probe_zero (J := P.jac 0) ?_ (by norm_num [swellInp]) 200
    show some (P.resid 0, _) = some _
    rw [hres]
  have hG : testMatA.el.getGmod = .ok (Elast.cubic 3 1 1).kGmod := by
    show (Elast.cubic 3 1 1).getGmod = _
    unfold Elast.getGmod
    exact if_neg (not_le.2 exEl_pos)
  obtain ⟨m1, ok1, -⟩ := step_of_solve hset hsol rfl hG
  refine ⟨⟨m1, ok1⟩, ?_⟩
  obtain ⟨K, hK0, hK⟩ := C79_geometry fccM fccS fun i => (fcc_slip i).2.2
  have hdev : devOfSvecP (swellInp v).d = 0 := by
    ext i j; fin_cases i <;> fin_cases j <;> simp [devOfSvecP, swellInp]
  obtain ⟨m2, ok2⟩ := C80_tangent swellExt idealLup_complete testMatA fccM fccS rfl fcc_slip K hK0.le hK 2 2 two_pos
    (fun E hE => (testMatA_ddot E hE).ge) (fun E hE => (testMatA_ddot E hE).le) (swellInp v) (by norm_num [swellInp])
    (by rw [hdev, isDev_iff]; simp) (swellMem none) m1 ok1
    (C80_voce (testVoce false) (by norm_num [testVoce]) (by norm_num [testVoce]) _ _ _) (by
      have h1 : len (swellInp v).w = 0 := vecNorm_zero
      have h2 : frob (0 : T3) = 0 := by simp [frob, ddot]
      rw [hdev, h1, h2]
      norm_num) 0
  have ok3 : getResponseSngl swellExt testMatA (swellInp v) (swellMem (some 0)) = .ok m2 := ok2
  unfold swellOut
  rw [ok3]

/-- the axial deviatoric stress after the step -/
theorem swell_stress {v : ℝ} (hv : 1 / 2 ≤ v) : (swellOut v).stress 2 = 2 / 10 ^ 5 * sqr2b3 * v ^ (-(4 / 3) : ℝ) := by
  have ok := (swell_ok hv).2
  have h1 := C94_stress swellExt testMatA 3 1 1 rfl _ _ _ ok
  have hv0 : 0 < v := by linarith
  obtain ⟨s⟩ := getResponseSngl_ok ok
  have hx : (Step.solve swellExt (swellInp v) s.P).x = 0 := by
    show (probe 8 _ _ _ _).x = 0
    unfold probe
    split <;> rfl
  have he : (histOf (swellOut v)).e = ![0, 1 / 10 ^ 5, 0, 0, 0] := by
    have : (histOf (swellOut v)).e = s.P.eF (Step.solve swellExt (swellInp v) s.P).x := by rw [OkStep.hist_eq s]; rfl
    rw [this, hx, Updst.eF_zero, s.hP, swell_hist]
  have hq : quatToTensor (histOf (swellOut v)).q = 1 := by
    have : quatToTensor (histOf (swellOut v)).q = quatToTensor (s.P.cQuat (Step.solve swellExt (swellInp v) s.P).x) := by
      rw [OkStep.hist_eq s]; exact quatToTensor_flip _ _
    rw [this, hx, Updst.cQuat_zero, s.hP]
    have hn : vecNorm (![1, 0, 0, 0] : Vec 4) = 1 := by
      unfold vecNorm
      rw [show (∑ i, (![1, 0, 0, 0] : Vec 4) i * (![1, 0, 0, 0] : Vec 4) i) = 1 by
        simp [Fin.sum_univ_four], Real.sqrt_one]
    have hcn : Step.quatN (swellMem (some 0)) = ![1, 0, 0, 0] := by
      unfold Step.quatN
      rw [swell_hist]
      show vecsVNormalize ![1, 0, 0, 0] = _
      unfold vecsVNormalize
      rw [hn]
      ext i; fin_cases i <;> simp [vecsVsa]
    rw [hcn]
    ext i j; fin_cases i <;> fin_cases j <;> simp [quatToTensor]
  have h2 := congrFun (congrFun h1 2) 2
  unfold stateS latS shapeStrain at h2
  rw [hq, he] at h2
  have hvr : (swellInp v).vr 1 = v := rfl
  rw [hvr] at h2
  have h3 : devOfSvecP (swellOut v).stress 2 2 = (swellOut v).stress 2 := rfl
  rw [h3] at h2
  rw [h2]
  have e : v ^ (-(4 / 3) : ℝ) = 1 / v * (1 / v ^ (1 / 3 : ℝ)) := by
    rw [one_div, one_div, ← Real.rpow_neg hv0.le, ← Real.rpow_neg_one, ← Real.rpow_add hv0]
    norm_num
  rw [e]
  generalize (1 : ℝ) / v = a
  generalize (1 : ℝ) / v ^ (1 / 3 : ℝ) = b
  simp [testMatA, dev, refStress, cubicStress, vecdToSymm, ofSvecP, vecdsToSvecP, Matrix.trace_fin_three]
  sqr_ring

/-- **C111, refuted: the tangent misses the change of the deviatoric stress with the volume.** The material of the tests
    with a small elastic strain, below the stress at which it slips, and steps that change nothing but the volume.  The
    tangent says that the deviatoric stress does not change.  It falls with the power -4/3 of the volume: in the
    direction of volume the column of the tangent is not the derivative of the stress. -/
theorem C111_refuted_coupling : ∃ A : Mat 6 6, swellExt.solver.Sound ∧ swellExt.lup.Sound ∧
    (∀ v, 1 / 2 ≤ v → getResponseSngl swellExt testMatA (swellInp v) (swellMem (some 0)) = .ok (swellOut v)) ∧
    (swellOut 1).mtan = some A ∧
    A.mulVec ![1 / 3, 1 / 3, 1 / 3, 0, 0, 0] = ![(swellOut 1).sdd 0, (swellOut 1).sdd 0, (swellOut 1).sdd 0, 0, 0, 0] ∧
    HasDerivAt (fun v => (swellOut v).stress 6) (-((swellOut 1).sdd 0)) 1 ∧
    HasDerivAt (fun v => (swellOut v).stress 2) (-(4 / 3) * (swellOut 1).stress 2) 1 ∧ (swellOut 1).stress 2 ≠ 0 ∧
    ¬ HasDerivAt (fun v => (swellOut v).stress 2 - (swellOut v).stress 6)
      (A.mulVec ![1 / 3, 1 / 3, 1 / 3, 0, 0, 0] 2) 1 := by
  have ok := (swell_ok (v := 1) (by norm_num)).2
  obtain ⟨s⟩ := getResponseSngl_ok ok
  have ht := s.ht
  have hA : ∃ A, (swellOut 1).mtan = some A := by
    cases hm : (swellOut 1).mtan with
    | some A => exact ⟨A, rfl⟩
    | none =>
      rw [hm] at ht
      simp only [Step.tangent, swellMem, Option.isSome_some, if_true, Option.map_eq_some_iff] at ht
      obtain ⟨a, -, h⟩ := ht
      exact absurd h (by simp)
  obtain ⟨A, hA⟩ := hA
  rw [hA] at ht
  have hvol := C15_volumetric s.P swellExt _ _ A ht
  have hK : (swellOut 1).sdd 0 = (Step.eosUpdate testMatA (swellInp 1) (swellMem (some 0))).bulkNew := by
    rw [s.hsdd]; rfl
  rw [← hK] at hvol
  have hcol : A.mulVec ![1 / 3, 1 / 3, 1 / 3, 0, 0, 0]
      = ![(swellOut 1).sdd 0, (swellOut 1).sdd 0, (swellOut 1).sdd 0, 0, 0, 0] := by
    have e : (![1 / 3, 1 / 3, 1 / 3, 0, 0, 0] : Vec 6) = (1 / 3 : ℝ) • ![1, 1, 1, 0, 0, 0] := by
      ext i; fin_cases i <;> simp
    rw [e, Matrix.mulVec_smul, hvol]
    ext i; fin_cases i <;> simp
  have hev : ∀ᶠ v in nhds (1 : ℝ), 1 / 2 ≤ v := (lt_mem_nhds (by norm_num : (1 / 2 : ℝ) < 1)).mono fun v h => h.le
  have hfl : 1 / 10 ^ 5 * testMatA.eos.bulkMod < (swellOut 1).sdd 0 := by
    rw [hK]
    simp [Step.eosUpdate, Eos.updateSimple, Eos.evalPTDiff, testMatA, testEos, swellInp, swellMem]
    norm_num
  have hp := C111_pressure swellExt testMatA 3 1 1 rfl swellInp 1 1 (fun v => ⟨rfl, rfl⟩) (swellMem (some 0)) swellOut
    (hev.mono fun v hv => (swell_ok hv).2) hfl
  rw [div_one] at hp
  have h1 : (swellOut 1).stress 2 = 2 / 10 ^ 5 * sqr2b3 := by
    rw [swell_stress (by norm_num), Real.one_rpow, mul_one]
  have hne : (swellOut 1).stress 2 ≠ 0 := by
    rw [h1]
    have : 0 < sqr2b3 := by unfold sqr2b3; positivity
    positivity
  have hs : HasDerivAt (fun v => (swellOut v).stress 2) (-(4 / 3) * (swellOut 1).stress 2) 1 := by
    have hd := (Real.hasDerivAt_rpow_const (x := 1) (p := (-(4 / 3) : ℝ)) (Or.inl one_ne_zero)).const_mul
      (2 / 10 ^ 5 * sqr2b3)
    rw [Real.one_rpow, mul_one, ← h1, mul_comm] at hd
    exact hd.congr_of_eventuallyEq (hev.mono fun v hv => by rw [h1]; exact swell_stress hv)
  refine ⟨A, probe_sound 8, idealLup_sound, fun v hv => (swell_ok hv).2, hA, hcol, hp, hs, hne, fun hbad => ?_⟩
  have hu := hbad.unique (hs.sub hp)
  rw [hcol] at hu
  simp at hu
  exact hne hu

/-- hypotheses of C111: two steps of the crystal with an elastic strain, to different volumes -/
example : ∃ K b : ℝ, 0 ≤ K ∧ SlipControl fccM fccS K ∧ swellExt.solver.Sound ∧ PressureFree testMatA.kin ∧
    testMatA.geom = slipPQ fccM fccS ∧ (∃ c11 c12 c44, testMatA.el = .cubic c11 c12 c44) ∧
    (swellInp 2).vr ≠ (swellInp 1).vr ∧ (swellInp 2).dt = (swellInp 1).dt ∧
    getResponseSngl swellExt testMatA (swellInp 1) (swellMem (some 0)) = .ok (swellOut 1) ∧
    getResponseSngl swellExt testMatA (swellInp 2) (swellMem (some 0)) = .ok (swellOut 2) ∧
    TameAt testMatA.kin (swellOut 1).tkelv (histOf (swellOut 1)).h 1 (10 ^ 45 * 1) 0 ∧
    b = spinGain K (2 / 2) (len (histOf (swellMem (some 0))).e) (((swellInp 1).vr 1) ^ (1 / 3 : ℝ)) ∧
    (swellInp 1).dt * (3 / 2 * len (swellInp 1).w + 3 * b * frob (devOfSvecP (swellInp 1).d)) ≤ 1 / 2 ∧
    0 < len (histOf (swellMem (some 0))).e := by
  obtain ⟨K, hK0, hK⟩ := C79_geometry fccM fccS fun i => (fcc_slip i).2.2
  refine ⟨K, _, hK0.le, hK, probe_sound 8, C111_voce _ _, rfl, ⟨3, 1, 1, rfl⟩, ?_, rfl, (swell_ok (by norm_num)).2,
    (swell_ok (by norm_num)).2, ?_, rfl, ?_, ?_⟩
  · intro h
    have := congrFun h 1
    simp [swellInp] at this
  · exact C79_voce (testVoce false) (by norm_num [testVoce]) (by norm_num [testVoce]) _ _ _
  · have hdev : devOfSvecP (swellInp 1).d = 0 := by
      ext i j; fin_cases i <;> fin_cases j <;> simp [devOfSvecP, swellInp]
    have h1 : len (swellInp 1).w = 0 := vecNorm_zero
    have h2 : frob (0 : T3) = 0 := by simp [frob, ddot]
    rw [hdev, h1, h2]
    norm_num
  · unfold histOf
    rw [swell_hist]
    refine Real.sqrt_pos.2 ?_
    simp [dot, Fin.sum_univ_five]

end Ecm.Props
