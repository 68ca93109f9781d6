/- Property theorems C67: failures on a device (src/ecmech/ECMech_port.h:31). -/
import Verif.Model.Device
import Verif.Props.Response
import Verif.Lemmas.KMLaw
import Verif.Lemmas.LongRun

namespace Ecm.Props
open Ecm Spec Classical

variable {n nH : ℕ}

/-- what the device version of `updateH` has to do with the host version: the same result without
    messages exactly when the host succeeds, messages exactly when the host fails -/
structure DevAgrees (K : DevKin n nH) : Prop where
  quiet : ∀ h dt g r, K.updateHDev h dt g = .ok (r, []) ↔ K.host.updateH h dt g = .ok r
  loud : ∀ h dt g, (∃ r msgs, msgs ≠ [] ∧ K.updateHDev h dt g = .ok (r, msgs)) ↔
    ∃ s, K.host.updateH h dt g = .fail s
  undef : ∀ h dt g w, K.updateHDev h dt g = .undef w ↔ K.host.updateH h dt g = .undef w

/-- C67 the hardening update of the Voce kinetics on a device agrees with the host -/
theorem C67_voce (k : Voce) (S : Solver 1) (n : ℕ) : DevAgrees (k.devKin S n) := by
  have key : ∀ h dt g, (∃ r s, (k.devKin S n).updateHDev h dt g = .ok (r, [s]) ∧
        (k.devKin S n).host.updateH h dt g = .fail s) ∨
      (∃ r, (k.devKin S n).updateHDev h dt g = .ok (r, []) ∧
        (k.devKin S n).host.updateH h dt g = .ok r) ∨
      (∃ w, (k.devKin S n).updateHDev h dt g = .undef w ∧
        (k.devKin S n).host.updateH h dt g = .undef w) := by
    intro h dt g
    show (∃ r s, k.updateHDev S h dt g = .ok (r, [s]) ∧ k.updateH S h dt g = .fail s) ∨
      (∃ r, k.updateHDev S h dt g = .ok (r, []) ∧ k.updateH S h dt g = .ok r) ∨
      (∃ w, k.updateHDev S h dt g = .undef w ∧ k.updateH S h dt g = .undef w)
    unfold Voce.updateHDev Voce.updateH
    by_cases h1 : k.gamss0 ≤ 0
    · rw [if_pos h1, if_pos h1]; exact .inr (.inr ⟨_, rfl, rfl⟩)
    · rw [if_neg h1, if_neg h1]
      simp only [updateH1Dev, updateH1]
      split_ifs with h2
      · exact .inr (.inl ⟨_, rfl, rfl⟩)
      · exact .inl ⟨_, _, rfl, rfl⟩
  refine ⟨fun h dt g r => ?_, fun h dt g => ?_, fun h dt g w => ?_⟩ <;>
    rcases key h dt g with ⟨r', s, a, b⟩ | ⟨r', a, b⟩ | ⟨w', a, b⟩ <;> rw [b] <;> simp [a]

/-- C67 the hardening update of the dislocation density kinetics on a device agrees with the host -/
theorem C67_kmbald {nV : ℕ} [NeZero nV] (k : KMBalD nV) (S : Solver 1) (n : ℕ) :
    DevAgrees (k.devKin S n) := by
  have key : ∀ h dt g, (∃ r s, (k.devKin S n).updateHDev h dt g = .ok (r, [s]) ∧
        (k.devKin S n).host.updateH h dt g = .fail s) ∨
      (∃ r, (k.devKin S n).updateHDev h dt g = .ok (r, []) ∧
        (k.devKin S n).host.updateH h dt g = .ok r) ∨
      (∃ w, (k.devKin S n).updateHDev h dt g = .undef w ∧
        (k.devKin S n).host.updateH h dt g = .undef w) := by
    intro h dt g
    show (∃ r s, k.updateHDev S h dt g = .ok (r, [s]) ∧ k.updateH S h dt g = .fail s) ∨
      (∃ r, k.updateHDev S h dt g = .ok (r, []) ∧ k.updateH S h dt g = .ok r) ∨
      (∃ w, k.updateHDev S h dt g = .undef w ∧ k.updateH S h dt g = .undef w)
    unfold KMBalD.updateHDev KMBalD.updateH
    by_cases h1 : k.gammaO ≤ 0
    · rw [if_pos h1, if_pos h1]; exact .inr (.inr ⟨_, rfl, rfl⟩)
    rw [if_neg h1, if_neg h1]
    by_cases h3 : max (h 0) k.hdnMin ≤ 0
    · rw [if_pos h3, if_pos h3]; exact .inr (.inr ⟨_, rfl, rfl⟩)
    rw [if_neg h3, if_neg h3]
    simp only [updateH1Dev, updateH1]
    split_ifs with h2
    · exact .inr (.inl ⟨_, rfl, rfl⟩)
    · exact .inl ⟨_, _, rfl, rfl⟩
  refine ⟨fun h dt g r => ?_, fun h dt g => ?_, fun h dt g w => ?_⟩ <;>
    rcases key h dt g with ⟨r', s, a, b⟩ | ⟨r', a, b⟩ | ⟨w', a, b⟩ <;> rw [b] <;> simp [a]

theorem setupDev_quiet {M : DevMaterial n nH} (hK : DevAgrees M.kin) {inp : Inputs} {m : Mem nH n}
    {a : Vec nH × Updst n} :
    Step.setupDev M inp m = .ok (a, []) ↔ Step.setup M.host inp m = .ok a := by
  unfold Step.setupDev Step.setup
  simp only
  by_cases h1 : (Hist.ofArray m.hist).q = 0
  · rw [if_pos h1, if_pos h1]; simp
  rw [if_neg h1, if_neg h1]
  by_cases h2 : M.eos.cvav = 0
  · rw [if_pos h2, if_pos (show M.host.eos.cvav = 0 from h2)]; simp
  rw [if_neg h2, if_neg (show ¬ M.host.eos.cvav = 0 from h2)]
  show _ ↔ (M.kin.host.updateH _ _ _).bind _ = _
  cases h3 : M.kin.host.updateH (Hist.ofArray m.hist).h inp.dt (Hist.ofArray m.hist).gdot with
  | undef w =>
    rw [(hK.undef _ _ _ _).2 h3]; simp [Out.bind]
  | fail s =>
    obtain ⟨r, msgs, hm, e⟩ := (hK.loud _ _ _).2 ⟨s, h3⟩
    rw [e]
    simp only [Out.bind]
    cases Updst.make M.geom M.kin.host M.el inp.dt (inp.vr 1) (Step.eosUpdate M.host inp m).eNew
        (Step.eosUpdate M.host inp m).press (Step.tK M.host inp m) r.1 (Hist.ofArray m.hist).e
        (Step.quatN m) (svecToVecd inp.d) inp.w <;> simp [hm]
  | ok r =>
    rw [(hK.quiet _ _ _ _).2 h3]
    simp only [Out.bind]
    rw [show M.host.geom = M.geom from rfl, show M.host.kin = M.kin.host from rfl,
      show M.host.el = M.el from rfl]
    cases Updst.make M.geom M.kin.host M.el inp.dt (inp.vr 1) (Step.eosUpdate M.host inp m).eNew
        (Step.eosUpdate M.host inp m).press (Step.tK M.host inp m) r.1 (Hist.ofArray m.hist).e
        (Step.quatN m) (svecToVecd inp.d) inp.w <;> simp

theorem tangentDev_quiet (X : DevExt) (b : ℝ) (P : Updst n) (x : Vec 8) (want : Bool) :
    (Step.tangentDev X b P x want).2 = [] ↔
      Step.tangent X.host b P x want = some (Step.tangentDev X b P x want).1 := by
  unfold Step.tangentDev Step.tangent
  cases want
  · simp
  · by_cases h : (X.lup (P.jacU x) (P.pfracRhsT x)).1 = true
    · simp [Updst.mtan, DevExt.host, h]
    · simp [Updst.mtan, DevExt.host, h]

theorem tangentDev_loud (X : DevExt) (b : ℝ) (P : Updst n) (x : Vec 8) (want : Bool)
    (hne : (Step.tangentDev X b P x want).2 ≠ []) : Step.tangent X.host b P x want = none := by
  revert hne
  unfold Step.tangentDev Step.tangent
  cases want
  · simp
  · by_cases h : (X.lup (P.jacU x) (P.pfracRhsT x)).1 = true
    · simp [h]
    · simp [Updst.mtan, DevExt.host, h]

/-- the run after a quiet setup: quiet exactly when the host run succeeds, with the same memory -/
theorem runDev_quiet (X : DevExt) (M : DevMaterial n nH) (inp : Inputs) (m m' : Mem nH n)
    (hU : Vec nH) (P : Updst n) :
    Step.runDev X M inp m hU P = (m', []) ↔ Step.run X.host M.host inp m hU P = .ok m' := by
  have hg : M.host.el = M.el := rfl
  have ht := tangentDev_quiet X (Step.eosUpdate M.host inp m).bulkNew P (Step.solve X.host inp P).x
    m.mtan.isSome
  have ht' := tangentDev_loud X (Step.eosUpdate M.host inp m).bulkNew P (Step.solve X.host inp P).x
    m.mtan.isSome
  unfold Step.run Step.runDev
  simp only
  by_cases h1 : (Step.solve X.host inp P).converged = false
  · rw [if_pos h1]; simp [h1]
  rw [if_neg h1]
  rw [Bool.not_eq_false] at h1
  rw [if_pos h1, List.nil_append, Prod.mk.injEq, List.append_eq_nil_iff, ht, hg]
  by_cases h2 : (Step.tangentDev X (Step.eosUpdate M.host inp m).bulkNew P
      (Step.solve X.host inp P).x m.mtan.isSome).2 = []
  · rw [ht.1 h2]
    unfold Step.gmodMsg Elast.getGmod
    by_cases h3 : M.el.kGmod ≤ 0
    · simp [h3]
    · simp [h3]
  · rw [ht' h2]; simp

/-- C67: a device update that prints nothing is exactly the host update. -/
theorem C67_quiet (X : DevExt) (M : DevMaterial n nH) (hK : DevAgrees M.kin) (inp : Inputs)
    (m m' : Mem nH n) :
    getResponseSnglDev X M inp m = .ok (m', []) ↔
      getResponseSngl X.host M.host inp m = .ok m' := by
  unfold getResponseSnglDev getResponseSngl
  constructor
  · intro h
    cases h1 : Step.setupDev M inp m with
    | undef w => simp [h1, Out.bind] at h
    | fail s => simp [h1, Out.bind] at h
    | ok a =>
      simp only [h1, Out.bind, Out.ok.injEq, Prod.mk.injEq, List.append_eq_nil_iff] at h
      obtain ⟨⟨hU, P⟩, msgs⟩ := a
      obtain ⟨e1, rfl, e2⟩ := h
      rw [(setupDev_quiet hK).1 h1]
      exact (runDev_quiet X M inp m m' hU P).1 (Prod.ext e1 e2)
  · intro h
    cases h1 : Step.setup M.host inp m with
    | undef w => simp [h1] at h
    | fail s => simp [h1] at h
    | ok a =>
      obtain ⟨hU, P⟩ := a
      simp only [h1] at h
      rw [(setupDev_quiet hK).2 h1]
      simp only [Out.bind, (runDev_quiet X M inp m m' hU P).2 h, List.append_nil]

/-- C67: a device update that returns with messages is one that the host reports as a failure. -/
theorem C67_loud (X : DevExt) (M : DevMaterial n nH) (hK : DevAgrees M.kin) (inp : Inputs)
    (m m' : Mem nH n) (msgs : List String) (hm : msgs ≠ [])
    (h : getResponseSnglDev X M inp m = .ok (m', msgs)) :
    ∃ s m'', getResponseSngl X.host M.host inp m = .fail s m'' := by
  cases hr : getResponseSngl X.host M.host inp m with
  | fail s m'' => exact ⟨s, m'', rfl⟩
  | ok m2 =>
    rw [(C67_quiet X M hK inp m m2).2 hr] at h
    exact absurd (Prod.mk.inj (Out.ok.inj h)).2.symm hm
  | undef w =>
    exfalso
    unfold getResponseSngl at hr
    cases h1 : Step.setup M.host inp m with
    | fail s => simp [h1] at hr
    | ok a =>
      simp only [h1, Step.run] at hr
      split_ifs at hr
      split at hr
      · simp at hr
      · have : ∀ w, M.host.el.getGmod ≠ .undef w := by
          intro w; unfold Elast.getGmod; split_ifs <;> simp
        split at hr
        · rename_i w' e; exact this _ e
        · simp at hr
        · simp at hr
    | undef w' =>
      unfold getResponseSnglDev at h
      have : ∃ w, Step.setupDev M inp m = .undef w := by
        unfold Step.setup at h1
        unfold Step.setupDev
        simp only at h1 ⊢
        by_cases a1 : (Hist.ofArray m.hist).q = 0
        · rw [if_pos a1]; exact ⟨_, rfl⟩
        rw [if_neg a1] at h1 ⊢
        by_cases a2 : M.eos.cvav = 0
        · rw [if_pos a2]; exact ⟨_, rfl⟩
        rw [if_neg (show ¬ M.host.eos.cvav = 0 from a2)] at h1
        rw [if_neg a2]
        change (M.kin.host.updateH _ _ _).bind _ = _ at h1
        cases h3 : M.kin.host.updateH (Hist.ofArray m.hist).h inp.dt (Hist.ofArray m.hist).gdot with
        | undef w => rw [(hK.undef _ _ _ _).2 h3]; exact ⟨_, rfl⟩
        | fail s => rw [h3] at h1; simp [Out.bind] at h1
        | ok r =>
          rw [h3] at h1
          rw [(hK.quiet _ _ _ _).2 h3]
          simp only [Out.bind] at h1 ⊢
          rw [show M.host.geom = M.geom from rfl, show M.host.kin = M.kin.host from rfl,
            show M.host.el = M.el from rfl] at h1
          cases h4 : Updst.make M.geom M.kin.host M.el inp.dt (inp.vr 1)
            (Step.eosUpdate M.host inp m).eNew
            (Step.eosUpdate M.host inp m).press (Step.tK M.host inp m) r.1 (Hist.ofArray m.hist).e
            (Step.quatN m) (svecToVecd inp.d) inp.w with
          | ok P => rw [h4] at h1; simp at h1
          | fail s => rw [h4] at h1; simp at h1
          | undef w => simp
      obtain ⟨w, e⟩ := this
      rw [e] at h
      simp [Out.bind] at h

/-- the orientation stored by any device update, failed or not, is a unit quaternion in the hemisphere
    of the one before -/
theorem C67_orientation (X : DevExt) (M : DevMaterial n nH) (inp : Inputs) (m m' : Mem nH n)
    (msgs : List String) (h : getResponseSnglDev X M inp m = .ok (m', msgs)) :
    dot (histOf m').q (histOf m').q = 1 ∧ 0 ≤ dot (histOf m').q (histOf m).q := by
  unfold getResponseSnglDev at h
  cases h1 : Step.setupDev M inp m with
  | undef w => simp [h1, Out.bind] at h
  | fail s => simp [h1, Out.bind] at h
  | ok a =>
    obtain ⟨⟨hU, P⟩, ms⟩ := a
    simp only [h1, Out.bind, Out.ok.injEq, Prod.mk.injEq] at h
    obtain ⟨rfl, -⟩ := h
    have hs : (histOf m).q ≠ 0 ∧ P.cN = Step.quatN m := by
      unfold Step.setupDev at h1
      simp only at h1
      by_cases a1 : (Hist.ofArray m.hist).q = 0
      · rw [if_pos a1] at h1; simp at h1
      rw [if_neg a1] at h1
      by_cases a2 : M.eos.cvav = 0
      · rw [if_pos a2] at h1; simp at h1
      rw [if_neg a2] at h1
      cases a3 : M.kin.updateHDev (Hist.ofArray m.hist).h inp.dt (Hist.ofArray m.hist).gdot with
      | undef w => simp [a3, Out.bind] at h1
      | fail s => simp [a3, Out.bind] at h1
      | ok u =>
        simp only [a3, Out.bind, Updst.make] at h1
        by_cases a4 : inp.dt = 0
        · rw [if_pos a4] at h1; simp at h1
        rw [if_neg a4] at h1
        by_cases a5 : inp.vr 1 ≤ 0
        · rw [if_pos a5] at h1; simp at h1
        rw [if_neg a5] at h1
        cases a6 : M.kin.host.getVals (Step.eosUpdate M.host inp m).press (Step.tK M.host inp m)
            u.1.1 with
        | undef w => simp [a6] at h1
        | fail s => simp [a6] at h1
        | ok v =>
          simp only [a6, Out.ok.injEq, Prod.mk.injEq] at h1
          rw [← h1.1.2]
          exact ⟨a1, rfl⟩
    obtain ⟨hq0, hcN⟩ := hs
    have hu : qn P.cN = 1 := by rw [hcN]; exact qn_quatN hq0
    have hq : (histOf (Step.runDev X M inp m hU P).1).q
        = Step.flipQuat (P.cQuat (Step.solve X.host inp P).x) P.cN := by
      show (Hist.ofArray (Hist.toArray _)).q = _
      rw [Hist.ofArray_toArray]; rfl
    have h2 := P.qn_cQuat hu (Step.solve X.host inp P).x
    rw [← dot_self_quat] at h2
    have hcN' : P.cN = fun i => (1 / vecNorm (histOf m).q) * (histOf m).q i := by
      rw [hcN]
      funext i
      show vecsVNormalize _ i = _
      simp [vecsVNormalize, vecsVsa, mul_comm, histOf]
    have hpos : 0 < vecNorm (histOf m).q := by
      rcases (vecNorm_nonneg (histOf m).q).lt_or_eq with h | h
      · exact h
      · exfalso
        rw [hcN', ← h] at hu
        simp [qn] at hu
    have hdot : ∀ a : Vec 4, dot a (histOf m).q = vecNorm (histOf m).q * dot a P.cN := by
      intro a
      rw [hcN']
      simp only [dot, Fin.sum_univ_four]
      field_simp
    rw [hdot, hq]
    rcases flipQuat_cases (P.cQuat (Step.solve X.host inp P).x) P.cN with ⟨e, h3⟩ | ⟨e, h3⟩
    · rw [e]; exact ⟨h2, mul_nonneg hpos.le h3⟩
    · rw [e]
      refine ⟨?_, mul_nonneg hpos.le ?_⟩
      · rw [← h2]; simp [dot]
      · rw [dot_neg4]; linarith

/-- the example material of `exMat` with its device kinetics -/
noncomputable def exDev : DevMaterial 12 1 where
  geom := slipPQ fccM fccS
  kin := voceExample.devKin (probe 1) 12
  el := exEl
  eos := { isothermal := false, rho0 := 1, bulkMod := 2, cvav := 1, gamma := 1, ec0 := -300 }

/-- external routines on the device for the examples -/
noncomputable def exDevExt : DevExt where
  solver := probe 8
  lup := fun _ B => (true, B)
  evalCost := 1

theorem exDev_host : exDev.host = exMat exEl := rfl

theorem exDevExt_host : exDevExt.host = exExt := by
  unfold DevExt.host exDevExt exExt; simp

theorem setup_spin (M : Material n nH) (inp : Inputs) (w : Vec 3) (m : Mem nH n) (hU : Vec nH)
    (P : Updst n) (h : Step.setup M inp m = .ok (hU, P)) :
    Step.setup M { inp with w := w } m = .ok (hU, { P with wSm := w }) := by
  obtain ⟨kU, v, sc, a1, a2, a3, a4, a5, a6, rfl⟩ := Step.setup_ok h
  exact Step.setup_eq_ok (M := M) (inp := { inp with w := w }) (m := m) a1 a2 a3 a4 a5 a6

/-- C67 "an update that did not converge is not passed off as a result" is false on a device: there
    are inputs for which a sound solver gives up, a message is printed, and the memory returned is, in
    every entry, the one returned for another spin with a converged solve.  Only the printed text tells
    the two apart. -/
theorem C67_refuted : ∃ (X : DevExt) (M : DevMaterial 12 1) (inp inp2 : Inputs) (m m' : Mem 1 12)
    (msgs : List String), X.solver.Sound ∧ DevAgrees M.kin ∧ msgs ≠ [] ∧
    getResponseSnglDev X M inp m = .ok (m', msgs) ∧ inp = { inp2 with w := inp.w } ∧ inp.w ≠ inp2.w ∧
    getResponseSnglDev X M inp2 m = .ok (m', []) := by
  set e : Vec 5 := ![1, 2, 3, 4, 5] with he
  set inp2 := exInp exEl e with hi2
  set P := exProb exEl e (symmToVecd (dev (sym (exL exEl e)))) (axial (exL exEl e)) with hP
  have hs : Step.setup exDev.host inp2 (exMem e none) = .ok ((fun _ => 1), P) :=
    ex_setup exEl e none
  have hpos : 0 < P.rotincrScaleInv := P.rotincrScaleInv_pos (by norm_num [hP, exProb])
    (by norm_num [hP, exProb])
  set w' : Vec 3 := P.wSm + ![0, 1 / P.rotincrScaleInv, 0] with hw'
  set P' : Updst 12 := { P with wSm := w' } with hP'
  have hK : DevAgrees exDev.kin := C67_voce _ _ _
  have hs' : Step.setup exDev.host { inp2 with w := w' } (exMem e none) = .ok ((fun _ => 1), P') :=
    setup_spin _ _ _ _ _ _ hs
  have hsol : Step.solve exDevExt.host inp2 P = { converged := true, x := 0, xLast := 0, nFEvals := 1 } := by
    rw [exDevExt_host]; exact ex_solve exEl e
  have hr : P'.resid 0 (iR 1) = -1 := by
    have h0 : P.resid 0 (iR 1) = 0 := by rw [hP, ex_resid exEl e]; rfl
    have e1 : P'.resid 0 (iR 1) = P.resid 0 (iR 1)
        - P.rotincrScaleInv * (P.dt * vecsVMTa (P.cMatx 0) ![0, 1 / P.rotincrScaleInv, 0] 1) := by
      show block8 _ _ (iR 1) = block8 _ _ (iR 1) - _
      rw [block8_iR, block8_iR]
      show P.rotincrScaleInv * (Updst.xiF 0 1 - P.dt * (vecsVMTa (P.cMatx 0) w' 1 - _ + _)) = _
      unfold Updst.residR
      rw [hw', show vecsVMTa (P.cMatx 0) (P.wSm + ![0, 1 / P.rotincrScaleInv, 0]) 1
        = vecsVMTa (P.cMatx 0) P.wSm 1 + vecsVMTa (P.cMatx 0) ![0, 1 / P.rotincrScaleInv, 0] 1 by
          rw [vecsVMTa_eq, Matrix.mulVec_add]; rfl]
      show P.rotincrScaleInv * (Updst.xiF 0 1 - P.dt * (_ -
        vecsVMa P.geom.Q (P.gdot 0) 1 + P.eeFac * vecsVMa (m35 (P.eF 0)) (P.edot 0) 1)) = _
      ring
    have hc : P.cMatx 0 = quatToTensor ![0, 0, 1, 0] := by
      unfold Updst.cMatx
      rw [show P.cQuat 0 = P.cN from P.cQuat_zero]
      rfl
    rw [e1, h0, hc]
    have : vecsVMTa (quatToTensor ![0, 0, 1, 0]) ![0, 1 / P.rotincrScaleInv, 0] 1
        = 1 / P.rotincrScaleInv := by
      simp [vecsVMTa, quatToTensor, Fin.sum_univ_three]
    rw [this, show P.dt = 1 from rfl]
    field_simp
    ring
  have hsol' : Step.solve exDevExt.host { inp2 with w := w' } P'
      = { converged := false, x := 0, xLast := 0, nFEvals := 1 } := by
    rw [exDevExt_host]
    show probe 8 P'.problem inp2.tol 200 (fun _ => 0) = _
    unfold probe
    show ({ converged := decide (vecNorm (P'.resid 0) ≤ inp2.tol), x := 0, xLast := 0
            nFEvals := 1 } : SolveResult 8) = _
    congr 1
    rw [decide_eq_false_iff_not, not_le]
    have h1 : (1 : ℝ) ≤ vecNorm (P'.resid 0) := by
      unfold vecNorm
      rw [Real.one_le_sqrt]
      calc (1 : ℝ) = P'.resid 0 (iR 1) * P'.resid 0 (iR 1) := by rw [hr]; norm_num
        _ ≤ _ := Finset.single_le_sum (f := fun i => P'.resid 0 i * P'.resid 0 i)
            (fun i _ => mul_self_nonneg _) (Finset.mem_univ _)
    have h2 : inp2.tol < 1 := by norm_num [hi2, exInp]
    linarith
  refine ⟨exDevExt, exDev, { inp2 with w := w' }, inp2, exMem e none,
    (Step.runDev exDevExt exDev inp2 (exMem e none) (fun _ => 1) P).1, ["Solver failed to converge!"],
    probe_sound 8, hK, by simp, ?_, rfl, ?_, ?_⟩
  · unfold getResponseSnglDev
    rw [(setupDev_quiet hK).2 hs']
    simp only [Out.bind, Step.runDev, hsol, hsol']
    rw [show Step.gmodMsg exDev.el = [] from if_neg (not_le.2 exEl_pos)]
    rfl
  · intro h
    have := congrFun h 1
    have hw : P.wSm = inp2.w := rfl
    rw [show ({ inp2 with w := w' } : Inputs).w = w' from rfl, hw', hw] at this
    simp at this
    exact absurd this hpos.ne'
  · unfold getResponseSnglDev
    rw [(setupDev_quiet hK).2 hs]
    simp only [Out.bind, Step.runDev, hsol]
    rw [show Step.gmodMsg exDev.el = [] from if_neg (not_le.2 exEl_pos)]
    rfl

/-- the hypotheses of `C67_quiet`, `C67_loud` and `C67_orientation` are met, quietly and with messages -/
example : ∃ (inp inp2 : Inputs) (m m' : Mem 1 12) (X : DevExt) (M : DevMaterial 12 1)
    (msgs : List String), DevAgrees M.kin ∧ msgs ≠ [] ∧
    getResponseSnglDev X M inp m = .ok (m', msgs) ∧ getResponseSnglDev X M inp2 m = .ok (m', []) := by
  obtain ⟨X, M, inp, inp2, m, m', msgs, -, a, b, c, -, -, d⟩ := C67_refuted
  exact ⟨inp, inp2, m, m', X, M, msgs, a, b, c, d⟩

/-- the dislocation density kinetics agree as well -/
example (S : Solver 1) : DevAgrees (kmExample.devKin S 12) := C67_kmbald _ _ _

end Ecm.Props
