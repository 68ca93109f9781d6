/- One successful update as a step of the abstract sequence of Verif/Lemmas/ConvergeSeq.lean. -/
import Verif.Lemmas.ConvergeSeq
import Verif.Lemmas.Stress

namespace Ecm
open Spec

namespace BL
variable {Z : Type*} [PseudoMetricSpace Z] {S : Set Z} {f : Z → ℝ}

theorem of_lipschitz {K : NNReal} (h : LipschitzOnWith K f S) {r : ℝ} (hr : ∀ z ∈ S, ∀ z' ∈ S, dist z z' ≤ r) :
    BL S f := by
  rcases S.eq_empty_or_nonempty with rfl | ⟨z0, h0⟩
  · exact ⟨0, le_rfl, fun z hz => hz.elim, fun z hz => hz.elim⟩
  have hd : ∀ z ∈ S, ∀ z' ∈ S, |f z - f z'| ≤ K * dist z z' := fun z hz z' hz' => by
    rw [← Real.dist_eq]; exact h.dist_le_mul z hz z' hz'
  have hr0 : 0 ≤ r := dist_nonneg.trans (hr z0 h0 z0 h0)
  have hK : (0 : ℝ) ≤ K := K.2
  refine ⟨|f z0| + K * r + K, by positivity, fun z hz => ?_, fun z hz z' hz' => ?_⟩
  · have h1 := hd z hz z0 h0
    have h2 := mul_le_mul_of_nonneg_left (hr z hz z0 h0) hK
    have h3 := abs_add_le (f z - f z0) (f z0)
    rw [sub_add_cancel] at h3
    linarith
  · refine (hd z hz z' hz').trans (mul_le_mul_of_nonneg_right ?_ dist_nonneg)
    have : 0 ≤ |f z0| + K * r := by positivity
    linarith

end BL

theorem abs_le_vecNormN {m : ℕ} (v : Vec m) (i : Fin m) : |v i| ≤ vecNorm v := by
  rw [← Real.sqrt_sq_eq_abs]
  refine Real.sqrt_le_sqrt ?_
  rw [sq]
  exact Finset.single_le_sum (f := fun i => v i * v i) (fun i _ => mul_self_nonneg _) (Finset.mem_univ i)

namespace Updst
variable {n : ℕ} (P : Updst n)

/-- the unscaled rotation residual at a point the solver accepts -/
theorem residR_le (hdt : 0 < P.dt) (ha : 0 < P.adotsRef) {tol : ℝ} {x : Vec 8}
    (h : vecNorm (P.resid x) ≤ tol) (i : Fin 3) :
    |P.residR x i| ≤ P.dt * (tol * (P.adotsRef + vecNorm P.dSm + 1 / 10 ^ 6 / P.dt)) := by
  have hs := P.epsdotScaleInv_pos hdt ha
  have h0 : 0 ≤ tol := (vecNorm_nonneg _).trans h
  have h1 : |P.resid x (iR i)| ≤ tol := (abs_le_vecNormN _ _).trans h
  have h2 : P.resid x (iR i) = 1 / P.dt * P.epsdotScaleInv * P.residR x i := by
    simp [resid, rotincrScaleInv, dtRi]
  rw [h2, abs_mul, abs_of_pos (by positivity)] at h1
  have h3 : |P.residR x i| ≤ P.dt * (tol * (1 / P.epsdotScaleInv)) := by
    rw [mul_one_div, ← mul_div_assoc, le_div_iff₀ hs]
    have := mul_le_mul_of_nonneg_left h1 hdt.le
    calc _ = P.dt * (1 / P.dt * P.epsdotScaleInv * |P.residR x i|) := by field_simp
      _ ≤ _ := this
  refine h3.trans (mul_le_mul_of_nonneg_left ?_ hdt.le)
  exact mul_le_mul_of_nonneg_left (P.inv_epsdotScaleInv_le hdt ha) h0

theorem residE_abs_le (hdt : 0 < P.dt) (ha : 0 < P.adotsRef) {tol : ℝ} {x : Vec 8}
    (h : vecNorm (P.resid x) ≤ tol) (i : Fin 5) :
    |P.residE x i| ≤ tol * (P.adotsRef + vecNorm P.dSm + 1 / 10 ^ 6 / P.dt) :=
  (abs_le_vecNormN _ _).trans (P.residE_le hdt ha h)

end Updst

variable {n nH : ℕ}

/-- the state used for the comparison, from the stored history -/
noncomputable def histState (t : ℝ) (H : Hist nH n) : CState nH := (t, H.e, quatToTensor H.q, H.h)

theorem quatN_of_unit {m : Mem nH n} (h : qn (Hist.ofArray m.hist).q = 1) :
    Step.quatN m = (Hist.ofArray m.hist).q := by
  unfold Step.quatN vecsVNormalize
  have : vecNorm (Hist.ofArray m.hist).q = 1 := by
    have h2 : vecNorm (Hist.ofArray m.hist).q ^ 2 = 1 := by
      rw [← h]
      unfold vecNorm
      rw [Real.sq_sqrt (Finset.sum_nonneg fun i _ => mul_self_nonneg _)]
      simp [Fin.sum_univ_succ, qn]; ring
    exact (pow_eq_one_iff_of_nonneg (vecNorm_nonneg _) two_ne_zero).1 h2
  rw [this]
  funext i
  simp [vecsVsa]

/-- what a successful update establishes between the stored states -/
theorem OkStep.compare {X : Ext} {M : Material n nH} {inp : Inputs} {m m' : Mem nH n}
    (s : OkStep X M inp m m') (hX : X.solver.Sound) (F : RateEq n nH) {c11 c12 c44 : ℝ}
    (hel : M.el = .cubic c11 c12 c44) (hK : F.K = M.el.kDiag) (hP : F.P = M.geom.P) (hQ : F.Q = M.geom.Q)
    (hq : qn (histOf m).q = 1) (hdt : 0 < inp.dt) (ha : 0 < M.kin.fixedRefRate s.v) {t' : ℝ}
    (hd : F.d t' = svecToVecd inp.d) (hw : F.w t' = inp.w) (ha0 : 0 < F.a t')
    (ha3 : F.a t' ^ 3 = inp.vr 1) {S : ℝ}
    (hS : inp.tol * (M.kin.fixedRefRate s.v + vecNorm (F.d t') + 1 / 10 ^ 6 / inp.dt) ≤ S) :
    (∀ i, |(histOf m').e i - (histOf m).e i
        - inp.dt * F.edOf (histState t' (histOf m')) (histOf m').gdot i| ≤ inp.dt * (F.a t' * S)) ∧
    (∃ ξ : Vec 3, (∀ i, |ξ i - inp.dt * F.omOf (histState t' (histOf m')) (histOf m').gdot
        (fun i => ((histOf m').e i - (histOf m).e i) / inp.dt) i| ≤ inp.dt * S) ∧
      ∀ i j, |quatToTensor (histOf m').q i j - quatToTensor (histOf m).q i j
        - (quatToTensor (histOf m').q * crossMat ξ) i j| ≤ 9 * vecNorm ξ ^ 2 + 24 / 10 ^ 90) ∧
    (∀ i, (histOf m').gdot i
      = (M.kin.evalGdot s.v i (F.tau (histState t' (histOf m')) i)).gdot) ∧
    (histOf m').h = s.hU ∧ qn (histOf m').q = 1 := by
  set x := (Step.solve X inp s.P).x with hx
  have hPel : s.P.el = M.el := by rw [s.hP]
  have hPdt : s.P.dt = inp.dt := by rw [s.hP]
  have hPv : s.P.detV = inp.vr 1 := by rw [s.hP]
  have hPd : s.P.dSm = F.d t' := by rw [s.hP, hd]
  have hPw : s.P.wSm = F.w t' := by rw [s.hP, hw]
  have hPg : s.P.geom = M.geom := by rw [s.hP]
  have hPa : s.P.adotsRef = M.kin.fixedRefRate s.v := by rw [s.hP]
  have hgd : s.P.gd = M.kin.evalGdot s.v := by rw [s.hP]
  have heN : s.P.eN = (histOf m).e := by rw [s.hP]
  have hcN : s.P.cN = (histOf m).q := by rw [s.hP]; exact quatN_of_unit hq
  have hcn : qn s.P.cN = 1 := by rw [hcN, hq]
  have hav : s.P.aV = F.a t' := by
    have h1 := s.P.aV_cube (hPv ▸ s.hv)
    have h2 := s.P.aV_pos (hPv ▸ s.hv)
    exact (pow_left_inj₀ h2.le ha0.le (by norm_num : (3 : ℕ) ≠ 0)).1 (h1.trans (hPv.trans ha3.symm))
  have havri : s.P.aVri = 1 / F.a t' := by rw [Updst.aVri, hav]
  obtain ⟨⟨r, J, hr, hrt⟩, hlast⟩ := hX _ _ _ _ s.hc
  have hr' : r = s.P.resid x := by
    have : some (s.P.resid (Step.solve X inp s.P).x, _) = some (r, J) := hr
    exact (Prod.mk.inj (Option.some.inj this)).1.symm
  rw [hr'] at hrt
  have hxl : Step.lastX (Step.solve X inp s.P) m.mtan.isSome = x := by
    have : (Step.solve X inp s.P).xLast = x := hlast
    unfold Step.lastX; split_ifs <;> simp [this, hx]
  have he : (histOf m').e = s.P.eF x := by rw [OkStep.hist_eq s]; rfl
  have hg : (histOf m').gdot = s.P.gdot x := by
    rw [OkStep.hist_eq s]
    show s.P.gdot (Step.lastX _ _) = _
    rw [hxl]
  have hRq : quatToTensor (histOf m').q = s.P.cMatx x := by
    rw [OkStep.hist_eq s]; exact quatToTensor_flip _ _
  have hunit : qn (histOf m').q = 1 := by
    have h1 := s.P.qn_cQuat hcn x
    rw [OkStep.hist_eq s]
    show qn (Step.flipQuat (s.P.cQuat x) s.P.cN) = 1
    rcases flipQuat_cases (s.P.cQuat x) s.P.cN with ⟨h, -⟩ | ⟨h, -⟩
    · rw [h, h1]
    · rw [h, ← h1]; simp [qn]
  have hSE := s.P.residE_abs_le (hPdt ▸ hdt) (hPa ▸ ha) hrt
  have hSR := s.P.residR_le (hPdt ▸ hdt) (hPa ▸ ha) hrt
  rw [hPa, hPd, hPdt] at hSE hSR
  refine ⟨fun i => ?_, ⟨Updst.xiF x, fun i => ?_, ?_⟩, fun i => ?_, ?_, hunit⟩
  · have h1 := s.P.eF_eq (hPdt ▸ hdt) (hPv ▸ s.hv) x i
    have e : (histOf m').e i - (histOf m).e i
        - inp.dt * F.edOf (histState t' (histOf m')) (histOf m').gdot i
        = inp.dt * (F.a t' * s.P.residE x i) := by
      simp only [RateEq.edOf, histState]
      rw [hg, hRq, he, h1, heN, hPdt, hav, hPd, hPg, hP, Updst.qr5x5]
      ring
    rw [e, abs_mul, abs_of_pos hdt, abs_mul, abs_of_pos ha0]
    exact mul_le_mul_of_nonneg_left (mul_le_mul_of_nonneg_left ((hSE i).trans hS) ha0.le) hdt.le
  · have e : Updst.xiF x i - inp.dt * F.omOf (histState t' (histOf m')) (histOf m').gdot
        (fun i => ((histOf m').e i - (histOf m).e i) / inp.dt) i = s.P.residR x i := by
      have e1 : s.P.edot x = fun i => ((histOf m').e i - (histOf m).e i) / inp.dt := by
        funext j
        rw [Updst.edot_eq', he, heN, Updst.dtRi, hPdt]; ring
      simp only [RateEq.omOf, histState, Updst.residR, Updst.eeFac]
      rw [hg, hRq, ← e1, he, hPdt, hPw, hPg, hQ, havri]
    rw [e]
    exact (hSR i).trans (mul_le_mul_of_nonneg_left hS hdt.le)
  · intro i j
    have h1 : s.P.cMatx x = quatToTensor (histOf m).q * quatToTensor (emapToQuat (Updst.xiF x)) := by
      rw [s.P.cMatx_eq x, hcN]
    have hrot := (isRot_of_unit (s.P.qn_cQuat hcn x)).1
    have := rot_increment (R := s.P.cMatx x) hrot h1 i j
    rw [hRq]
    linarith
  · rw [hg]
    have h1 := s.P.taua_cubic (hPel ▸ hel) x i
    simp only [Updst.gdot, hgd]
    rw [h1, havri, hPel, hPg, ← hK, ← hP, ← he]
    rfl
  · rw [OkStep.hist_eq s]; rfl

end Ecm
