/- Property theorem C75: results do not depend on the units of stress and time
   (src/ecmech/ECMech_evptn.h:405-1246, ECMech_kinetics.h:81-190, ECMech_kinetics_VocePL.h,
   ECMech_kinetics_KMBalD.h). -/
import Verif.Lemmas.Units
import Verif.Lemmas.UnitsKin
import Verif.Props.KMBalD
import Verif.Props.Objectivity

namespace Ecm.Props
open Ecm Spec

variable {n nH : ℕ}

/-- the material in other units, with the kinetics `K'` -/
noncomputable def unitsMat (σ : ℝ) (M : Material n nH) (K' : Kin n nH) : Material n nH where
  geom := M.geom
  kin := K'
  el := M.el.units σ
  eos := M.eos.units σ

theorem unitsMem_hist (σ θ : ℝ) (fh : Vec nH → Vec nH) (m : Mem nH n) :
    Hist.ofArray (unitsMem σ θ fh m).hist = unitsHist σ θ fh (Hist.ofArray m.hist) := Hist.ofArray_toArray _

/-- C75 the update does not depend on the units: with stresses `σ` times as large and times `θ` times as
    large, a material whose parameters are converted accordingly, and converted arguments, the outcome is
    the converted outcome (including the same failures), for every external solver.  Conditions: the
    kinetics converts (see C75_voce and C75_km), the two tests of the code against an absolute rate of
    1e-90 fall out alike, and when a tangent is asked for the linear solver does not care about the unit
    of time. -/
theorem C75_units (X : Ext) (M : Material n nH) (K' : Kin n nH) (inp : Inputs) (m : Mem nH n)
    {σ θ : ℝ} (hσ : 0 < σ) (hθ : 0 < θ) (fh : Vec nH → Vec nH)
    (hK : KinUnits σ θ fh M.kin K' (Hist.ofArray m.hist).h inp.dt (Hist.ofArray m.hist).gdot)
    (ht : idpTinySqrt < vecdDeff (svecToVecd inp.d) ↔ idpTinySqrt < θ⁻¹ * vecdDeff (svecToVecd inp.d))
    (hL : m.mtan = none ∨ LupUnits X.lup θ) :
    getResponseSngl X (unitsMat σ M K') (unitsInputs θ inp) (unitsMem σ θ fh m)
      = mapRes (unitsMem σ θ fh) (getResponseSngl X M inp m) := by
  have htK : Step.tK (unitsMat σ M K') (unitsInputs θ inp) (unitsMem σ θ fh m) = Step.tK M inp m :=
    Eos.units_tK hσ M.eos _ _
  obtain ⟨u1, u2, u3⟩ : (Step.eosUpdate (unitsMat σ M K') (unitsInputs θ inp) (unitsMem σ θ fh m)).press
        = σ * (Step.eosUpdate M inp m).press ∧
      (Step.eosUpdate (unitsMat σ M K') (unitsInputs θ inp) (unitsMem σ θ fh m)).eNew
        = σ * (Step.eosUpdate M inp m).eNew ∧
      (Step.eosUpdate (unitsMat σ M K') (unitsInputs θ inp) (unitsMem σ θ fh m)).bulkNew
        = σ * (Step.eosUpdate M inp m).bulkNew := Eos.units_update hσ M.eos _ _ _ _
  have hset : (∃ w, Step.setup M inp m = .undef w ∧
        Step.setup (unitsMat σ M K') (unitsInputs θ inp) (unitsMem σ θ fh m) = .undef w) ∨
      (∃ s, Step.setup M inp m = .fail s ∧
        Step.setup (unitsMat σ M K') (unitsInputs θ inp) (unitsMem σ θ fh m) = .fail s) ∨
      ∃ (hU : Vec nH) (P : Updst n) (gd' : Fin n → ℝ → Gd), Step.setup M inp m = .ok (hU, P) ∧
        GdUnits σ θ P.gd gd' ∧ P.dSm = svecToVecd inp.d ∧ P.el = M.el ∧
        Step.setup (unitsMat σ M K') (unitsInputs θ inp) (unitsMem σ θ fh m) = .ok (fh hU, P.units σ θ gd') := by
    unfold Step.setup
    simp only [unitsMem_hist]
    have eq : (unitsHist σ θ fh (Hist.ofArray m.hist)).q = (Hist.ofArray m.hist).q := rfl
    rw [eq]
    by_cases h1 : (Hist.ofArray m.hist).q = 0
    · exact Or.inl ⟨_, by rw [if_pos h1], by rw [if_pos h1]⟩
    simp only [if_neg h1]
    by_cases h2 : M.eos.cvav = 0
    · refine Or.inl ⟨_, by rw [if_pos h2], ?_⟩
      rw [if_pos]; show σ * M.eos.cvav = 0; rw [h2, mul_zero]
    have h2' : ¬ (unitsMat σ M K').eos.cvav = 0 := mul_ne_zero hσ.ne' h2
    simp only [if_neg h2, if_neg h2']
    have hupd := hK.upd
    have hvals := hK.vals
    rw [show (unitsMat σ M K').kin.updateH (unitsHist σ θ fh (Hist.ofArray m.hist)).h (unitsInputs θ inp).dt
        (unitsHist σ θ fh (Hist.ofArray m.hist)).gdot = _ from hupd]
    cases h3 : M.kin.updateH (Hist.ofArray m.hist).h inp.dt (Hist.ofArray m.hist).gdot with
    | undef w => exact Or.inl ⟨w, rfl, rfl⟩
    | fail s => exact Or.inr (Or.inl ⟨s, rfl, rfl⟩)
    | ok r =>
      obtain ⟨h, k⟩ := r
      have hv := hvals (Step.eosUpdate M inp m).press (Step.tK M inp m) h k h3
      simp only [Out.bind, Updst.make, htK, u1, u2]
      by_cases h4 : inp.dt = 0
      · refine Or.inl ⟨_, by rw [if_pos h4], ?_⟩
        rw [if_pos]; show θ * inp.dt = 0; rw [h4, mul_zero]
      have h4' : ¬ (unitsInputs θ inp).dt = 0 := mul_ne_zero hθ.ne' h4
      simp only [if_neg h4, if_neg h4']
      have e5 : (unitsInputs θ inp).vr 1 = inp.vr 1 := rfl
      rw [e5]
      by_cases h5 : inp.vr 1 ≤ 0
      · exact Or.inl ⟨_, by rw [if_pos h5], by rw [if_pos h5]⟩
      simp only [if_neg h5]
      have e6 : ∀ o, K'.getVals (σ * (Step.eosUpdate M inp m).press) (Step.tK M inp m) (fh h) = o →
        (unitsMat σ M K').kin.getVals (σ * (Step.eosUpdate M inp m).press) (Step.tK M inp m) (fh h) = o :=
        fun _ h => h
      cases h6 : M.kin.getVals (Step.eosUpdate M inp m).press (Step.tK M inp m) h with
      | undef w => rw [h6] at hv; exact Or.inl ⟨w, rfl, by simp only [e6 _ hv]⟩
      | fail s => rw [h6] at hv; exact Or.inr (Or.inl ⟨s, rfl, by simp only [e6 _ hv]⟩)
      | ok v =>
        obtain ⟨v, sc⟩ := v
        rw [h6] at hv
        obtain ⟨v', b1, b2, b3⟩ := hv
        refine Or.inr (Or.inr ⟨h, _, K'.evalGdot v', rfl, b3, rfl, rfl, ?_⟩)
        have b2' : (unitsMat σ M K').kin.fixedRefRate v' = θ⁻¹ * M.kin.fixedRefRate v := b2
        rw [e6 _ b1]
        have e7 : svecToVecd (unitsInputs θ inp).d = fun i => θ⁻¹ * svecToVecd inp.d i := svecToVecd_smul _ _
        have e8 : Step.quatN (unitsMem σ θ fh m) = Step.quatN m := by
          unfold Step.quatN; rw [unitsMem_hist]; rfl
        simp only [e7, e8, b2']
        rfl
  unfold getResponseSngl
  rcases hset with ⟨w, h1, h2⟩ | ⟨s, h1, h2⟩ | ⟨hU, P, gd', h1, hg, hd, hel, h2⟩
  · rw [h1, h2]; rfl
  · rw [h1, h2, htK]; rfl
  rw [h1, h2]
  simp only [Step.run]
  have hsol : Step.solve X (unitsInputs θ inp) (P.units σ θ gd') = Step.solve X inp P := by
    unfold Step.solve
    rw [P.units_problem hg hσ hθ]
    rfl
  rw [hsol, htK]
  by_cases h3 : (Step.solve X inp P).converged = false
  · simp only [h3, if_true]; rfl
  simp only [if_neg h3]
  have hw : (unitsMem σ θ fh m).mtan.isSome = m.mtan.isSome := by
    cases h : m.mtan <;> simp [unitsMem, h]
  have hL' : m.mtan.isSome = false ∨ LupUnits X.lup θ := hL.imp (fun h => by simp [h]) id
  rw [u3, hw, P.units_tangent hg hσ hθ X _ _ _ hL']
  cases h4 : Step.tangent X (Step.eosUpdate M inp m).bulkNew P (Step.solve X inp P).x m.mtan.isSome with
  | none => rfl
  | some t =>
    simp only [Option.map_some]
    have hs : Step.stressOf (P.units σ θ gd') ((P.units σ θ gd').eF (Step.solve X inp P).x)
        ((P.units σ θ gd').cQuat (Step.solve X inp P).x)
        = fun i => σ * Step.stressOf P (P.eF (Step.solve X inp P).x) (P.cQuat (Step.solve X inp P).x) i :=
      P.units_stressOf _ _
    have hh : Step.newHist X (unitsInputs θ inp) (Hist.ofArray (unitsMem σ θ fh m).hist) (fh hU)
        (P.units σ θ gd') (Step.solve X inp P) m.mtan.isSome
        = unitsHist σ θ fh (Step.newHist X inp (Hist.ofArray m.hist) hU P (Step.solve X inp P) m.mtan.isSome) := by
      rw [unitsMem_hist]
      unfold Step.newHist unitsHist
      simp only
      rw [P.units_shrateEff hg hθ, P.units_flowStr hg hσ hθ (by rw [hd]; exact ht), P.units_gdot hg]
      congr 1
      show _ + θ⁻¹ * P.shrateEff _ * (θ * inp.dt) = _
      field_simp
    rw [hs, hh]
    rw [show (unitsMat σ M K').el = M.el.units σ from rfl, Elast.units_getGmod hσ]
    cases M.el.getGmod with
    | undef w => rfl
    | fail s => simp only [mapRes, unitsMem, Hist.ofArray_toArray]
    | ok g =>
      simp only [mapRes, u2]
      have i1 : ∀ s : Vec 7, Step.halfVMidDt (unitsInputs θ inp) * vecsInnerSvecDev (fun i => σ * s i) (unitsInputs θ inp).d
          = σ * (Step.halfVMidDt inp * vecsInnerSvecDev s inp.d) := by
        intro s
        have : Step.halfVMidDt (unitsInputs θ inp) = θ * Step.halfVMidDt inp := by
          unfold Step.halfVMidDt
          show 1 / 4 * (inp.vr 0 + inp.vr 1) * (θ * inp.dt) = _
          ring
        rw [this]
        simp only [vecsInnerSvecDev, unitsInputs]
        field_simp
      simp only [unitsMem, Hist.ofArray_toArray, i1]
      rw [Res.ok.injEq, Mem.mk.injEq]
      refine ⟨?_, rfl, rfl, rfl, ?_, rfl⟩
      · ring
      · funext i; fin_cases i <;> rfl

/-- C75 the linear solver: an exact one (its solutions solve, it refuses exactly the singular matrices)
    does not care about the unit of time. -/
theorem C75_lup_exact (L : LUP) (hs : L.Sound) (hd : ∀ A B, L A B = none ↔ A.det = 0) {θ : ℝ} (hθ : 0 < θ) :
    LupUnits L θ := lup_exact L hs hd hθ

/-- C75 Voce kinetics converts, provided the strength is at least one in both units (or the unit of
    stress stays): the code scales the hardening problem by the strength or one, whichever is larger. -/
theorem C75_voce (k : Voce) (S : Solver 1) {σ θ : ℝ} (hσ : 0 < σ) (hθ : 0 < θ) (hO : Vec 1) (dt : ℝ) (gdot : Vec n)
    (hx : σ = 1 ∨ (1 ≤ hO 0 ∧ 1 ≤ σ * hO 0))
    (ht : idpTinySqrt < vecsssumabs gdot ↔ idpTinySqrt < θ⁻¹ * vecsssumabs gdot) :
    KinUnits σ θ (fun h i => σ * h i) (k.kin S n) ((k.units σ θ).kin S n) hO dt gdot := by
  have hm : max (σ * hO 0) 1 = σ * max (hO 0) 1 := by
    rcases hx with h | ⟨h1, h2⟩
    · rw [h, one_mul, one_mul]
    · rw [max_eq_left h1, max_eq_left h2]
  constructor
  · show (k.units σ θ).updateH S (fun i => σ * hO i) (θ * dt) (fun i => θ⁻¹ * gdot i)
      = (k.updateH S hO dt gdot).bind fun r => .ok (fun i => σ * r.1 i, r.2)
    unfold Voce.updateH
    have hc : (k.units σ θ).gamss0 ≤ 0 ↔ k.gamss0 ≤ 0 := by
      show θ⁻¹ * k.gamss0 ≤ 0 ↔ _
      constructor
      · intro h; by_contra h2; push Not at h2; linarith [mul_pos (inv_pos.2 hθ) h2]
      · intro h; exact mul_nonpos_of_nonneg_of_nonpos (inv_pos.2 hθ).le h
    by_cases h0 : k.gamss0 ≤ 0
    · rw [if_pos h0, if_pos (hc.2 h0)]; rfl
    rw [if_neg h0, if_neg fun h => h0 (hc.1 h), Voce.units_evol k hθ gdot ht]
    have := updateH1_units S (k.getSdot1 (k.getEvolVals gdot))
      ((k.units σ θ).getSdot1 (θ⁻¹ * (k.getEvolVals gdot).1, σ * (k.getEvolVals gdot).2)) (dt := dt) hσ hθ
      (fun h => Voce.units_sdot k hσ _ _ h) hm
    rw [this]
    cases updateH1 S (k.getSdot1 (k.getEvolVals gdot)) (hO 0) dt <;> rfl
  · intro p tK h _ _
    have e1 : ∀ h : Vec 1, (k.kin S n).getVals p tK h
      = if 0 < h 0 then .ok (h 0, h 0) else .undef "assert(vals[0] > zero)" := fun _ => rfl
    have e2 : ((k.units σ θ).kin S n).getVals (σ * p) tK (fun i => σ * h i)
      = if 0 < σ * h 0 then .ok (σ * h 0, σ * h 0) else .undef "assert(vals[0] > zero)" := rfl
    rw [e1]
    by_cases h0 : 0 < h 0
    · rw [if_pos h0]
      refine ⟨σ * h 0, by rw [e2, if_pos (mul_pos hσ h0)], rfl, fun i τ => ?_⟩
      exact Voce.units_evalGdot k hσ hθ (h 0) τ
    · rw [if_neg h0]
      show ((k.units σ θ).kin S n).getVals (σ * p) tK (fun i => σ * h i) = _
      rw [e2, if_neg fun h => h0 ((mul_pos_iff_of_pos_left hσ).1 h)]

/-- C75 dislocation density kinetics converts without a condition on the state: its hardness variable, the
    density, keeps its unit. -/
theorem C75_km {nV : ℕ} [NeZero nV] (k : KMBalD nV) (S : Solver 1) {σ θ : ℝ} (hσ : 0 < σ) (hθ : 0 < θ)
    (hO : Vec 1) (dt : ℝ) (gdot : Vec n)
    (ht : idpTinySqrt < vecsssumabs gdot ↔ idpTinySqrt < θ⁻¹ * vecsssumabs gdot) :
    KinUnits σ θ (fun h => h) (k.kin S n) ((k.units σ θ).kin S n) hO dt gdot := by
  constructor
  · show (k.units σ θ).updateH S hO (θ * dt) (fun i => θ⁻¹ * gdot i)
      = (k.updateH S hO dt gdot).bind fun r => .ok (r.1, r.2)
    unfold KMBalD.updateH
    have hc : (k.units σ θ).gammaO ≤ 0 ↔ k.gammaO ≤ 0 := by
      show θ⁻¹ * k.gammaO ≤ 0 ↔ _
      constructor
      · intro h; by_contra h2; push Not at h2; linarith [mul_pos (inv_pos.2 hθ) h2]
      · intro h; exact mul_nonpos_of_nonneg_of_nonpos (inv_pos.2 hθ).le h
    have hmin : (k.units σ θ).hdnMin = k.hdnMin := rfl
    rw [hmin]
    by_cases h0 : k.gammaO ≤ 0
    · rw [if_pos h0, if_pos (hc.2 h0)]; rfl
    rw [if_neg h0, if_neg fun h => h0 (hc.1 h)]
    by_cases h1 : max (hO 0) k.hdnMin ≤ 0
    · rw [if_pos h1, if_pos h1]; rfl
    rw [if_neg h1, if_neg h1, KMBalD.units_evol k hθ gdot ht]
    have := updateH1_units S (k.getSdot1 (k.getEvolVals gdot))
      ((k.units σ θ).getSdot1 (θ⁻¹ * (k.getEvolVals gdot).1, (k.getEvolVals gdot).2)) (σ := 1) (hO := Real.log (max (hO 0) k.hdnMin))
      (dt := dt) one_pos hθ (fun h => KMBalD.units_sdot (σ := σ) k _ _ h) (by simp)
    rw [one_mul] at this
    rw [this]
    cases updateH1 S (k.getSdot1 (k.getEvolVals gdot)) (Real.log (max (hO 0) k.hdnMin)) dt with
    | ok r => simp only [Out.bind, one_mul]
    | fail s => rfl
    | undef w => rfl
  · intro p tK h _ _
    have e1 : (k.kin S n).getVals p tK h = k.getVals tK h := rfl
    have e2 : ((k.units σ θ).kin S n).getVals (σ * p) tK h = (k.units σ θ).getVals tK h := rfl
    rw [e1]
    have hu := KMBalD.units_getVals (θ := θ) k hσ tK h
    cases h6 : k.getVals tK h with
    | ok r =>
      obtain ⟨v, s⟩ := r
      rw [h6] at hu
      refine ⟨_, e2.trans hu, ?_, fun i τ => ?_⟩
      · show θ⁻¹ * v.gamW + θ⁻¹ * v.gamR = θ⁻¹ * (v.gamW + v.gamR)
        ring
      · have x1 : ∀ j, (k.units σ θ).xm j = k.xm j := k.units_xm hσ
        have x2 : ∀ j, (k.units σ θ).xnn j = k.xnn j := fun j => by unfold KMBalD.xnn; rw [x1]
        have x3 : ∀ j, (k.units σ θ).xn j = k.xn j := fun j => by unfold KMBalD.xn; rw [x2]
        have x4 : ∀ j, (k.units σ θ).tMin j = k.tMin j := fun j => by unfold KMBalD.tMin; rw [x1]
        have x5 : ∀ j, (k.units σ θ).tMax j = k.tMax j := fun j => by unfold KMBalD.tMax; rw [x1]
        have x6 : (k.units σ θ).iVal i = k.iVal i := rfl
        have := KMBalD.units_sel k hσ hθ v.gamW v.gamR (v.g (k.iVal i)) (v.ct (k.iVal i)) (k.xn (k.iVal i))
          (k.xnn (k.iVal i)) (k.tMin (k.iVal i)) (k.tMax (k.iVal i)) τ
        have x7 : ∀ v' : KMVals nV, (k.units σ θ).evalGdot v' i (σ * τ) = (k.units σ θ).evalGdotSel v'.gamW v'.gamR
            (v'.g (k.iVal i)) (v'.ct (k.iVal i)) (k.xn (k.iVal i))
            (k.xnn (k.iVal i)) (k.tMin (k.iVal i)) (k.tMax (k.iVal i)) (σ * τ) := fun v' => by
          unfold KMBalD.evalGdot; simp only [x2, x3, x4, x5, x6]
        rw [← x7 ⟨θ⁻¹ * v.gamW, θ⁻¹ * v.gamR, fun i => σ * v.g i, fun i => σ⁻¹ * v.ct i⟩] at this
        exact this
    | fail s => rw [h6] at hu; exact e2.trans hu
    | undef w => rw [h6] at hu; exact e2.trans hu

/-- a material in megabar, centimetres and microseconds: initial strength 1e-4 (10 MPa), saturation 2e-4,
    slope 1e-3 -/
noncomputable def mbar : Voce where
  nonlinear := false
  mu := 1
  xm := 1
  gamW := 1
  h0 := 1 / 10 ^ 3
  tausi := 1 / 10 ^ 4
  taus0 := 2 / 10 ^ 4
  xmprime := 1
  xms := 0
  gamss0 := 1
  hdnInit := 1 / 10 ^ 4

/-- the external solver that tries one given point -/
noncomputable def tryAt (x : Vec 1) : Solver 1 := fun P tol k _ => probe 1 P tol k x

theorem tryAt_sound (x : Vec 1) : (tryAt x).Sound := fun P tol k _ h => probe_sound 1 P tol k x h

theorem mbar_evol (σ : ℝ) :
    (mbar.units σ 1).getEvolVals (fun _ : Fin 1 => 1 / 10 ^ 4) = (1 / 10 ^ 4, σ * (2 / 10 ^ 4)) := by
  have hs : vecsssumabs (fun _ : Fin 1 => (1 / 10 ^ 4 : ℝ)) = 1 / 10 ^ 4 := by
    simp [vecsssumabs]
  simp only [Voce.getEvolVals, hs]
  rw [if_pos (by unfold idpTinySqrt; norm_num)]
  simp [Voce.units, mbar]

theorem mbar_law {σ : ℝ} (hσ : 0 < σ) (h : ℝ) :
    (mbar.units σ 1).getSdot1 (1 / 10 ^ 4, σ * (2 / 10 ^ 4)) h
      = some ((σ * (2 / 10 ^ 4) - h) / 10 ^ 3, -1 / 10 ^ 3) := by
  have hc : ¬ σ * (2 / 10 ^ 4) ≤ σ * (1 / 10 ^ 4) := by
    intro h; have := le_of_mul_le_mul_left h hσ; norm_num at this
  have e1 : (mbar.units σ 1).tausi = σ * (1 / 10 ^ 4) := rfl
  have e2 : (mbar.units σ 1).h0 = σ * (1 / 10 ^ 3) := rfl
  have e3 : ¬ (mbar.units σ 1).nonlinear = true := by simp [Voce.units, mbar]
  unfold Voce.getSdot1
  simp only
  rw [if_neg e3, e1, e2, if_neg hc, Option.some.injEq, Prod.mk.injEq]
  constructor <;> field_simp <;> ring

/-- C75 (negation, strength below one) without the condition of C75_voce the results depend on the unit
    of stress.  In megabar, for slip rate 1e-4 per microsecond (100 per second) and step 1e-4
    microseconds, the solver may accept the initial guess, and the strength stays what it was, in this and
    in every later step; in pascal every solver that keeps its tolerance lets the same material harden by
    at least 0.99 Pa (the rate equation gives 1 Pa). -/
theorem C75_refuted_stress_unit :
    ∃ (k : Voce) (h dt : ℝ) (gdot : Vec 1) (σ : ℝ), 0 < σ ∧
      (∃ S : Solver 1, S.Sound ∧ k.updateH S (fun _ => h) dt gdot = .ok (fun _ => h, 1)) ∧
      (∃ S : Solver 1, S.Sound ∧ ∃ r, (k.units σ 1).updateH S (fun _ => σ * h) dt gdot = .ok r) ∧
      ∀ S : Solver 1, S.Sound → ∀ r, (k.units σ 1).updateH S (fun _ => σ * h) dt gdot = .ok r →
        σ * h + 99 / 100 ≤ r.1 0 := by
  have hu : mbar.units 1 1 = mbar := by simp [Voce.units, mbar]
  have hn : ∀ a : ℝ, vecNorm (fun _ : Fin 1 => a) = |a| := fun a => by
    simp [vecNorm, Real.sqrt_mul_self_eq_abs]
  have hP : ∀ (σ : ℝ), 0 < σ → ∀ (hO x : ℝ), ∃ J,
      (⟨(mbar.units σ 1).getSdot1 (1 / 10 ^ 4, σ * (2 / 10 ^ 4)), hO, 1 / 10 ^ 4⟩ : H1Problem).problem (fun _ => x)
        = some (fun _ => (x * max hO 1 - (σ * (2 / 10 ^ 4) - (hO + x * max hO 1)) / 10 ^ 3 * (1 / 10 ^ 4))
          * (1 / max hO 1), J) := by
    intro σ hσ hO x
    refine ⟨fun _ _ => 1 - -1 / 10 ^ 3 * (1 / 10 ^ 4), ?_⟩
    unfold H1Problem.problem H1Problem.computeRJ
    simp only [mbar_law hσ, Option.map_some]
    rfl
  have hup : ∀ (σ : ℝ) (S : Solver 1) (h : ℝ), (mbar.units σ 1).updateH S (fun _ => h) (1 / 10 ^ 4) (fun _ : Fin 1 => 1 / 10 ^ 4)
      = (updateH1 S ((mbar.units σ 1).getSdot1 (1 / 10 ^ 4, σ * (2 / 10 ^ 4))) h (1 / 10 ^ 4)).bind fun r => .ok (fun _ => r.1, r.2) := by
    intro σ S h
    unfold Voce.updateH
    rw [if_neg (by simp [Voce.units, mbar]), mbar_evol]
  refine ⟨mbar, 1 / 10 ^ 4, 1 / 10 ^ 4, fun _ => 1 / 10 ^ 4, 10 ^ 11, by norm_num, ⟨probe 1, probe_sound 1, ?_⟩,
    ⟨tryAt fun _ => (1 / (1 + 1 / 10 ^ 7)) / 10 ^ 7, tryAt_sound _, ?_⟩, ?_⟩
  · have := hup 1 (probe 1) (1 / 10 ^ 4)
    rw [hu] at this
    rw [this]
    obtain ⟨J, hJ⟩ := hP 1 one_pos (1 / 10 ^ 4) 0
    rw [hu] at hJ
    unfold updateH1
    simp only [probe, hJ, hn]
    rw [show max (1 / 10 ^ 4 : ℝ) 1 = 1 by norm_num]
    have hd : decide (|((0 : ℝ) * 1 - (1 * (2 / 10 ^ 4) - (1 / 10 ^ 4 + 0 * 1)) / 10 ^ 3 * (1 / 10 ^ 4)) * (1 / 1)|
        ≤ 1 / 10 ^ 10) = true := by
      rw [decide_eq_true_eq]; norm_num
    rw [hd]
    simp [H1Problem.getHn, Out.bind]
  · rw [hup]
    obtain ⟨J, hJ⟩ := hP (10 ^ 11) (by norm_num) (10 ^ 11 * (1 / 10 ^ 4)) ((1 / (1 + 1 / 10 ^ 7)) / 10 ^ 7)
    unfold updateH1 tryAt
    simp only [probe, hJ, hn]
    rw [if_pos]
    · exact ⟨_, rfl⟩
    · rw [decide_eq_true_eq]
      norm_num
  · intro S hS r hr
    rw [hup] at hr
    unfold updateH1 at hr
    simp only at hr
    split_ifs at hr with hc
    · simp only [Out.bind, Out.ok.injEq] at hr
      obtain ⟨⟨rr, J', h1, h2⟩, -⟩ := hS _ _ _ _ hc
      set x := (S (⟨(mbar.units (10 ^ 11) 1).getSdot1 (1 / 10 ^ 4, 10 ^ 11 * (2 / 10 ^ 4)), 10 ^ 11 * (1 / 10 ^ 4), 1 / 10 ^ 4⟩ : H1Problem).problem
        (1 / 10 ^ 10) 100 (fun _ => 0)).x with hx
      obtain ⟨J, hJ⟩ := hP (10 ^ 11) (by norm_num) (10 ^ 11 * (1 / 10 ^ 4)) (x 0)
      have hxx : x = fun _ => x 0 := by funext i; rw [Subsingleton.elim i 0]
      rw [hxx, hJ, Option.some.injEq, Prod.mk.injEq] at h1
      rw [← h1.1, hn] at h2
      have hm : max (10 ^ 11 * (1 / 10 ^ 4) : ℝ) 1 = 10 ^ 7 := by norm_num
      rw [hm] at h2
      have h3 := (abs_le.1 h2).1
      rw [← hr]
      simp only [H1Problem.getHn, H1Problem.xScale, hm]
      have h4 : (0 : ℝ) ≤ (x 0 * 10 ^ 7 - (10 ^ 11 * (2 / 10 ^ 4) - (10 ^ 11 * (1 / 10 ^ 4) + x 0 * 10 ^ 7)) / 10 ^ 3 * (1 / 10 ^ 4)) * (1 / 10 ^ 7)
          + 1 / 10 ^ 10 := by linarith
      ring_nf at h4 ⊢
      linarith
    · simp [Out.bind] at hr

/-! ### Examples -/

/-- any rate leaves room for a change of the unit of time -/
theorem units_room (v : ℝ) (hv : 0 ≤ v) :
    ∃ θ : ℝ, 0 < θ ∧ θ ≠ 1 ∧ (idpTinySqrt < v ↔ idpTinySqrt < θ⁻¹ * v) := by
  by_cases h : idpTinySqrt < v
  · exact ⟨1 / 2, by norm_num, by norm_num, by constructor <;> intro _ <;> norm_num <;> linarith⟩
  · refine ⟨2, by norm_num, by norm_num, by constructor <;> intro h2 <;> norm_num at h2 ⊢ <;> linarith⟩

/-- an exact linear solver exists -/
noncomputable def exactLup : LUP := open Classical in fun A B =>
  if A.det = 0 then none else some fun j => A⁻¹.mulVec (B j)

theorem exactLup_sound : exactLup.Sound ∧ ∀ A B, exactLup A B = none ↔ A.det = 0 := by
  constructor
  · intro A B X h j i
    unfold exactLup at h
    split_ifs at h with h0
    have h := Option.some.inj h
    subst h
    have : A.mulVec (A⁻¹.mulVec (B j)) = B j := by
      rw [Matrix.mulVec_mulVec, Matrix.mul_nonsing_inv _ (Ne.isUnit h0), Matrix.one_mulVec]
    exact congrFun this i
  · intro A B
    unfold exactLup
    split_ifs with h0 <;> simp [h0]

example : LupUnits exactLup 60 := C75_lup_exact _ exactLup_sound.1 exactLup_sound.2 (by norm_num)

/-- the example step in units of half the stress and another unit of time: it succeeds, and returns the
    converted state -/
example (e : Vec 5) : ∃ θ : ℝ, 0 < θ ∧ θ ≠ 1 ∧ ∃ m',
    getResponseSngl exExt (exMat exEl) (exInp exEl e) (exMem e none) = .ok m' ∧
    getResponseSngl exExt (unitsMat 2 (exMat exEl) ((voceExample.units 2 θ).kin (probe 1) 12))
      (unitsInputs θ (exInp exEl e)) (unitsMem 2 θ (fun h i => 2 * h i) (exMem e none))
      = .ok (unitsMem 2 θ (fun h i => 2 * h i) m') := by
  obtain ⟨θ, h1, h2, h3⟩ := units_room (vecdDeff (svecToVecd (exInp exEl e).d))
    (mul_nonneg (by unfold sqr2b3; positivity) (Real.sqrt_nonneg _))
  obtain ⟨m', hm⟩ := ex_ok exEl exEl_pos e none
  refine ⟨θ, h1, h2, m', hm, ?_⟩
  have hz : vecsssumabs (Hist.ofArray (exMem e none).hist).gdot = 0 := by
    rw [ex_ofArray]; simp [exHist, vecsssumabs]
  have := C75_units exExt (exMat exEl) ((voceExample.units 2 θ).kin (probe 1) 12) (exInp exEl e) (exMem e none)
    (by norm_num : (0 : ℝ) < 2) h1 (fun h i => 2 * h i)
    (C75_voce voceExample (probe 1) (by norm_num) h1 _ _ _
      (Or.inr (by rw [ex_ofArray]; simp [exHist]))
      (by rw [hz, mul_zero])) h3 (Or.inl rfl)
  rw [this, hm]
  rfl

/-- with a tangent, in another unit of stress -/
example (e : Vec 5) (t : Mat 6 6) : ∃ m',
    getResponseSngl exExt (exMat exEl) (exInp exEl e) (exMem e (some t)) = .ok m' ∧
    getResponseSngl exExt (unitsMat 2 (exMat exEl) ((voceExample.units 2 1).kin (probe 1) 12))
      (unitsInputs 1 (exInp exEl e)) (unitsMem 2 1 (fun h i => 2 * h i) (exMem e (some t)))
      = .ok (unitsMem 2 1 (fun h i => 2 * h i) m') := by
  obtain ⟨m', hm⟩ := ex_ok exEl exEl_pos e (some t)
  refine ⟨m', hm, ?_⟩
  have := C75_units exExt (exMat exEl) ((voceExample.units 2 1).kin (probe 1) 12) (exInp exEl e) (exMem e (some t))
    (by norm_num : (0 : ℝ) < 2) one_pos (fun h i => 2 * h i)
    (C75_voce voceExample (probe 1) (by norm_num) one_pos _ _ _
      (Or.inr (by rw [ex_ofArray]; simp [exHist])) (by simp)) (by simp) (Or.inr (lup_one _))
  rw [this, hm]
  rfl

/-- dislocation density kinetics: stress in megapascal and gigapascal, time in seconds and microseconds -/
example (hO : Vec 1) :
    KinUnits (1 / 10 ^ 3) (10 ^ 6) (fun h => h) (kmExample.kin (probe 1) 12)
      ((kmExample.units (1 / 10 ^ 3) (10 ^ 6)).kin (probe 1) 12) hO 1 (fun _ => 1) := by
  refine C75_km kmExample (probe 1) (by norm_num) (by norm_num) hO 1 _ ?_
  have hs : vecsssumabs (fun _ : Fin 12 => (1 : ℝ)) = 12 := by simp [vecsssumabs]
  rw [hs]
  unfold idpTinySqrt
  constructor <;> intro _ <;> norm_num

end Ecm.Props
