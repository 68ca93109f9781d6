/- Lemmas on the update of one material point. -/
import Verif.Model.Response
import Verif.Lemmas.Problem

namespace Ecm
open Spec

/-! ### The history array -/

theorem Hist.ofArray_toArray {nH n : ℕ} (H : Hist nH n) : Hist.ofArray H.toArray = H := by
  obtain ⟨a, b, c, d, e, q, h, g⟩ := H
  simp only [Hist.ofArray, Hist.toArray]
  congr 1
  · funext i
    have := i.isLt
    simp only [show ¬ (4 + i.val = 0) by omega, show ¬ (4 + i.val = 1) by omega,
      show ¬ (4 + i.val = 2) by omega, show ¬ (4 + i.val = 3) by omega,
      show 4 + i.val < 9 by omega, if_false, dif_pos]
    congr 1; ext; simp
  · funext i
    have := i.isLt
    simp only [show ¬ (9 + i.val = 0) by omega, show ¬ (9 + i.val = 1) by omega,
      show ¬ (9 + i.val = 2) by omega, show ¬ (9 + i.val = 3) by omega,
      show ¬ (9 + i.val < 9) by omega, show 9 + i.val < 13 by omega, if_false, dif_pos, dif_neg,
      not_false_eq_true]
    congr 1; ext; simp
  · funext i
    have := i.isLt
    simp only [show ¬ (13 + i.val = 0) by omega, show ¬ (13 + i.val = 1) by omega,
      show ¬ (13 + i.val = 2) by omega, show ¬ (13 + i.val = 3) by omega,
      show ¬ (13 + i.val < 9) by omega, show ¬ (13 + i.val < 13) by omega,
      show 13 + i.val < 13 + nH by omega, if_false, dif_pos, dif_neg,
      not_false_eq_true]
    congr 1; ext; simp
  · funext i
    have := i.isLt
    simp only [show ¬ (13 + nH + i.val = 0) by omega, show ¬ (13 + nH + i.val = 1) by omega,
      show ¬ (13 + nH + i.val = 2) by omega, show ¬ (13 + nH + i.val = 3) by omega,
      show ¬ (13 + nH + i.val < 9) by omega, show ¬ (13 + nH + i.val < 13) by omega,
      show ¬ (13 + nH + i.val < 13 + nH) by omega, if_false, dif_neg,
      not_false_eq_true]
    congr 1; ext; simp

theorem Hist.toArray_ofArray {nH n : ℕ} (a : Vec (numHist nH n)) : (Hist.ofArray a).toArray = a := by
  funext k
  have hk := k.isLt
  unfold numHist at hk
  simp only [Hist.ofArray, Hist.toArray]
  split_ifs with h0 h1 h2 h3 h4 h9 h13 <;> congr 1 <;> ext <;> simp <;> omega

theorem Hist.toArray_inj {nH n : ℕ} {H K : Hist nH n} (h : H.toArray = K.toArray) : H = K := by
  rw [← Hist.ofArray_toArray H, h, Hist.ofArray_toArray]

/-! ### Successful updates -/

/-- everything that is known after a successful update -/
structure OkStep {n nH : ℕ} (X : Ext) (M : Material n nH) (inp : Inputs) (m m' : Mem nH n) where
  hU : Vec nH
  kU : ℕ
  v : M.kin.Vals
  scale : ℝ
  g : ℝ
  hq : (Hist.ofArray m.hist).q ≠ 0
  hcv : M.eos.cvav ≠ 0
  hdt : inp.dt ≠ 0
  hv : 0 < inp.vr 1
  hH : M.kin.updateH (Hist.ofArray m.hist).h inp.dt (Hist.ofArray m.hist).gdot = .ok (hU, kU)
  hV : M.kin.getVals (Step.eosUpdate M inp m).press (Step.tK M inp m) hU = .ok (v, scale)
  P : Updst n
  hP : P = { geom := M.geom, el := M.el, gd := M.kin.evalGdot v, adotsRef := M.kin.fixedRefRate v,
             hdnScale := scale, dt := inp.dt, detV := inp.vr 1,
             eVref := (Step.eosUpdate M inp m).eNew, pEos := (Step.eosUpdate M inp m).press,
             tK := Step.tK M inp m, eN := (Hist.ofArray m.hist).e, cN := Step.quatN m,
             dSm := svecToVecd inp.d, wSm := inp.w }
  hc : (Step.solve X inp P).converged = true
  ht : Step.tangent X (Step.eosUpdate M inp m).bulkNew P (Step.solve X inp P).x m.mtan.isSome
    = some m'.mtan
  hg : M.el.getGmod = .ok g
  hst : m'.stress
    = Step.stressOf P (P.eF (Step.solve X inp P).x) (P.cQuat (Step.solve X inp P).x)
  hhist : m'.hist
    = (Step.newHist X inp (Hist.ofArray m.hist) hU P (Step.solve X inp P) m.mtan.isSome).toArray
  htk : m'.tkelv = Step.tK M inp m
  hsdd : m'.sdd = ![(Step.eosUpdate M inp m).bulkNew, g]
  hE : m'.eInt = (Step.eosUpdate M inp m).eNew
    + (Step.halfVMidDt inp * vecsInnerSvecDev m.stress inp.d
      + Step.halfVMidDt inp * vecsInnerSvecDev m'.stress inp.d)

theorem Step.setup_ok {n nH : ℕ} {M : Material n nH} {inp : Inputs} {m : Mem nH n}
    {hU : Vec nH} {P : Updst n} (h : Step.setup M inp m = .ok (hU, P)) :
    ∃ kU v scale, (Hist.ofArray m.hist).q ≠ 0 ∧ M.eos.cvav ≠ 0 ∧ inp.dt ≠ 0 ∧ 0 < inp.vr 1 ∧
      M.kin.updateH (Hist.ofArray m.hist).h inp.dt (Hist.ofArray m.hist).gdot = .ok (hU, kU) ∧
      M.kin.getVals (Step.eosUpdate M inp m).press (Step.tK M inp m) hU = .ok (v, scale) ∧
      P = { geom := M.geom, el := M.el, gd := M.kin.evalGdot v, adotsRef := M.kin.fixedRefRate v,
            hdnScale := scale, dt := inp.dt, detV := inp.vr 1,
            eVref := (Step.eosUpdate M inp m).eNew, pEos := (Step.eosUpdate M inp m).press,
            tK := Step.tK M inp m, eN := (Hist.ofArray m.hist).e, cN := Step.quatN m,
            dSm := svecToVecd inp.d, wSm := inp.w } := by
  unfold Step.setup at h
  simp only at h
  by_cases h1 : (Hist.ofArray m.hist).q = 0
  · simp [h1] at h
  rw [if_neg h1] at h
  by_cases h2 : M.eos.cvav = 0
  · simp [h2] at h
  rw [if_neg h2] at h
  cases h3 : M.kin.updateH (Hist.ofArray m.hist).h inp.dt (Hist.ofArray m.hist).gdot with
  | fail s => simp [h3, Out.bind] at h
  | undef w => simp [h3, Out.bind] at h
  | ok u =>
    obtain ⟨u, kU⟩ := u
    simp only [h3, Out.bind, Updst.make] at h
    by_cases h4 : inp.dt = 0
    · simp [h4] at h
    rw [if_neg h4] at h
    by_cases h5 : inp.vr 1 ≤ 0
    · simp [h5] at h
    rw [if_neg h5] at h
    cases h6 : M.kin.getVals (Step.eosUpdate M inp m).press (Step.tK M inp m) u with
    | fail s => simp [h6] at h
    | undef w => simp [h6] at h
    | ok v =>
      obtain ⟨v, sc⟩ := v
      simp only [h6, Out.ok.injEq, Prod.mk.injEq] at h
      obtain ⟨rfl, rfl⟩ := h
      exact ⟨kU, v, sc, h1, h2, h4, not_le.1 h5, rfl, h6, rfl⟩

theorem Step.setup_eq_ok {n nH : ℕ} {M : Material n nH} {inp : Inputs} {m : Mem nH n}
    {hU : Vec nH} {kU : ℕ} {v : M.kin.Vals} {scale : ℝ}
    (h1 : (Hist.ofArray m.hist).q ≠ 0) (h2 : M.eos.cvav ≠ 0) (h3 : inp.dt ≠ 0) (h4 : 0 < inp.vr 1)
    (h5 : M.kin.updateH (Hist.ofArray m.hist).h inp.dt (Hist.ofArray m.hist).gdot = .ok (hU, kU))
    (h6 : M.kin.getVals (Step.eosUpdate M inp m).press (Step.tK M inp m) hU = .ok (v, scale)) :
    Step.setup M inp m = .ok (hU,
      { geom := M.geom, el := M.el, gd := M.kin.evalGdot v, adotsRef := M.kin.fixedRefRate v,
        hdnScale := scale, dt := inp.dt, detV := inp.vr 1,
        eVref := (Step.eosUpdate M inp m).eNew, pEos := (Step.eosUpdate M inp m).press,
        tK := Step.tK M inp m, eN := (Hist.ofArray m.hist).e, cN := Step.quatN m,
        dSm := svecToVecd inp.d, wSm := inp.w }) := by
  unfold Step.setup
  simp only [if_neg h1, if_neg h2, h5, Out.bind, Updst.make, if_neg h3, if_neg (not_le.2 h4), h6]

theorem getResponseSngl_ok {n nH : ℕ} {X : Ext} {M : Material n nH} {inp : Inputs} {m m' : Mem nH n}
    (h : getResponseSngl X M inp m = .ok m') : Nonempty (OkStep X M inp m m') := by
  unfold getResponseSngl at h
  cases h1 : Step.setup M inp m with
  | fail s => simp [h1] at h
  | undef w => simp [h1] at h
  | ok a =>
    obtain ⟨hU, P⟩ := a
    simp only [h1, Step.run] at h
    by_cases h2 : (Step.solve X inp P).converged = false
    · simp [h2] at h
    rw [if_neg h2] at h
    cases h3 : Step.tangent X (Step.eosUpdate M inp m).bulkNew P (Step.solve X inp P).x
        m.mtan.isSome with
    | none => simp [h3] at h
    | some t =>
      simp only [h3] at h
      cases h4 : M.el.getGmod with
      | fail s => simp [h4] at h
      | undef w => simp [h4] at h
      | ok g =>
        simp only [h4, Res.ok.injEq] at h
        obtain ⟨kU, v, sc, a1, a2, a3, a4, a5, a6, a7⟩ := Step.setup_ok h1
        subst h
        exact ⟨{ hU := hU, kU := kU, v := v, scale := sc, g := g, hq := a1, hcv := a2, hdt := a3,
                 hv := a4, hH := a5, hV := a6, P := P, hP := a7, hc := by simpa using h2, ht := h3,
                 hg := h4, hst := rfl, hhist := rfl, htk := rfl, hsdd := rfl, hE := rfl }⟩

theorem qn_quatN {nH n : ℕ} {m : Mem nH n} (h : (Hist.ofArray m.hist).q ≠ 0) :
    qn (Step.quatN m) = 1 := by
  unfold Step.quatN
  generalize (Hist.ofArray m.hist).q = q at *
  have hn : vecNorm q ^ 2 = qn q := by
    unfold vecNorm
    rw [Real.sq_sqrt (Finset.sum_nonneg fun i _ => mul_self_nonneg _)]
    simp [Fin.sum_univ_succ, qn]; ring
  have hp : 0 < qn q := by
    have h0 : 0 ≤ qn q := by rw [← hn]; positivity
    rcases h0.lt_or_eq with h1 | h1
    · exact h1
    · exfalso
      apply h
      have e : q 0 ^ 2 + q 1 ^ 2 + q 2 ^ 2 + q 3 ^ 2 = 0 := h1.symm
      ext i
      fin_cases i <;> simp <;> nlinarith [sq_nonneg (q 0), sq_nonneg (q 1), sq_nonneg (q 2), sq_nonneg (q 3)]
  have hne : vecNorm q ≠ 0 := fun h0 => by rw [h0] at hn; linarith
  have e : qn (vecsVNormalize q) = qn q * (1 / vecNorm q) ^ 2 := by
    simp [qn, vecsVNormalize, vecsVsa]; ring
  rw [e, ← hn]; field_simp

theorem OkStep.unit {n nH : ℕ} {X : Ext} {M : Material n nH} {inp : Inputs} {m m' : Mem nH n}
    (s : OkStep X M inp m m') : qn s.P.cN = 1 := by
  rw [s.hP]; exact qn_quatN s.hq

end Ecm
