/- Property theorems C92: how closely an update follows the imposed deformation rate, and what becomes of this at
   rates far below the reference rate of slip (src/ecmech/ECMech_evptn.h:448-456, the scale of the residual). -/
import Verif.Props.TestStep
import Verif.Props.ColdStep
import Verif.Props.Runs
import Verif.Lemmas.RotLip

namespace Ecm.Props
open Ecm Spec Classical

variable {n nH : ℕ}

/-- the part of the imposed deformation rate that a step does not account for, in the frame of the lattice: rate of
    elastic strain plus rate of slip minus imposed rate.  `Ms`, `Ss` are the normals and directions of the slip systems. -/
noncomputable def lostRate (Ms Ss : Fin n → Vec 3) (inp : Inputs) (m m' : Mem nH n) : T3 :=
  (1 / (inp.vr 1) ^ (1 / 3 : ℝ)) • ((1 / inp.dt) • (vecdToSymm (histOf m').e - vecdToSymm (histOf m).e))
    + dev (sym (slipGrad (histOf m').gdot Ss Ms))
    + (-1 : ℝ) • ((quatToTensor (histOf m').q).transpose * devOfSvecP inp.d * quatToTensor (histOf m').q)

/-- the rate that the tolerance is measured against, for the imposed rate `D`, the reference rate of slip `A` and the
    time step `dt` -/
noncomputable def lostScale (D A dt : ℝ) : ℝ := if D < A / 10 ^ 8 then A else max D (1 / 10 ^ 6 / dt)

theorem inv_epsdotScaleInv_eq (P : Updst n) (hdt : 0 < P.dt) (ha : 0 < P.adotsRef) :
    1 / P.epsdotScaleInv = lostScale (vecNorm P.dSm) P.adotsRef P.dt := by
  have hn := vecNorm_nonneg P.dSm
  have e : epsdotSclNzeff * P.adotsRef = P.adotsRef / 10 ^ 8 := by unfold epsdotSclNzeff idpEpsSqrt; norm_num; ring
  unfold Updst.epsdotScaleInv lostScale
  simp only [e]
  by_cases h : vecNorm P.dSm < P.adotsRef / 10 ^ 8
  · rw [if_pos h, if_pos h, one_div_one_div]
  · rw [if_neg h, if_neg h]
    have h0 : 0 < vecNorm P.dSm := lt_of_lt_of_le (by positivity) (not_lt.1 h)
    rw [if_neg h0.ne']
    have e2 : 10 ^ 6 * P.dt = 1 / (1 / 10 ^ 6 / P.dt) := by field_simp
    have h2 : 0 < 1 / 10 ^ 6 / P.dt := by positivity
    rw [e2]
    rcases le_total (vecNorm P.dSm) (1 / 10 ^ 6 / P.dt) with h3 | h3
    · rw [max_eq_right h3, min_eq_right (one_div_le_one_div_of_le h0 h3), one_div_one_div]
    · rw [max_eq_left h3, min_eq_left (one_div_le_one_div_of_le h2 h3), one_div_one_div]

/-- the two parts of the residual -/
theorem resid_norm_sq (P : Updst n) (x : Vec 8) : vecNorm (P.resid x) ^ 2
    = (P.epsdotScaleInv * vecNorm (P.residE x)) ^ 2 + (P.rotincrScaleInv * vecNorm (P.residR x)) ^ 2 := by
  rw [mul_pow, mul_pow, vecNorm_sq, vecNorm_sq, vecNorm_sq]
  have h8 : ∑ i : Fin 8, P.resid x i ^ 2
      = (∑ i : Fin 5, P.resid x (iE i) ^ 2) + ∑ i : Fin 3, P.resid x (iR i) ^ 2 := by
    simp [Fin.sum_univ_succ, iE, iR]; ring
  rw [h8, Finset.mul_sum, Finset.mul_sum]
  congr 1 <;> refine Finset.sum_congr rfl fun i _ => ?_ <;> simp [Updst.resid] <;> ring

theorem scaled_le_resid (P : Updst n) (x : Vec 8) : P.epsdotScaleInv * vecNorm (P.residE x) ≤ vecNorm (P.resid x) := by
  refine abs_le_of_sq_le_sq' ?_ (vecNorm_nonneg _) |>.2
  rw [resid_norm_sq]
  nlinarith [sq_nonneg (P.rotincrScaleInv * vecNorm (P.residR x))]

theorem lostRate_eq {X : Ext} (hX : X.solver.Sound) {M : Material n nH} {Ms Ss : Fin n → Vec 3}
    (hgeom : M.geom = slipPQ Ms Ss) {inp : Inputs} (hd : IsDev (devOfSvecP inp.d)) {m m' : Mem nH n}
    (s : OkStep X M inp m m') :
    frob (lostRate Ms Ss inp m m') = vecNorm (s.P.residE (Step.solve X inp s.P).x) ∧
      vecNorm (s.P.resid (Step.solve X inp s.P).x) ≤ inp.tol := by
  obtain ⟨⟨r, J, hr, hrt⟩, hl⟩ := hX _ _ _ _ s.hc
  have hr' : s.P.resid (Step.solve X inp s.P).x = r := by
    have : s.P.problem (Step.solve X inp s.P).x = some (r, J) := hr
    simp only [Updst.problem, Option.some.injEq, Prod.mk.injEq] at this
    exact this.1
  have hl' : (Step.solve X inp s.P).xLast = (Step.solve X inp s.P).x := hl
  refine ⟨?_, hr' ▸ hrt⟩
  set x := (Step.solve X inp s.P).x with hx
  have he : (histOf m').e = s.P.eF x := by rw [OkStep.hist_eq s]; rfl
  have hq : quatToTensor (histOf m').q = s.P.cMatx x := by
    rw [OkStep.hist_eq s]; exact quatToTensor_flip _ _
  have hg : (histOf m').gdot = s.P.gdot x := by
    rw [OkStep.hist_eq s]
    show s.P.gdot (Step.lastX _ _) = _
    unfold Step.lastX
    rw [hl']
    simp [hx]
  have heN : s.P.eN = (histOf m).e := by rw [s.hP]
  have hPd : s.P.dSm = svecToVecd inp.d := by rw [s.hP]
  have hPg : s.P.geom = slipPQ Ms Ss := by rw [s.hP]; exact hgeom
  have hPdt : s.P.dt = inp.dt := by rw [s.hP]
  have hPv : s.P.aV = (inp.vr 1) ^ (1 / 3 : ℝ) := by unfold Updst.aV; rw [s.hP]
  have dD : symmToVecd (devOfSvecP inp.d) = s.P.dSm := by
    rw [hPd]
    obtain ⟨h1, h2, h3, h4⟩ := (isDev_iff _).1 hd
    simp [devOfSvecP] at h4
    funext i
    fin_cases i <;> simp [svecToVecd, symmToVecd, devOfSvecP]
    rw [h4]
    sqr_ring
  have key := s.P.residE_eq hPg s.unit hd x dD (symmToVecd_vecdToSymm _)
    (symmToVecd_vecdToSymm _)
  have hrot := isRot_of_unit (s.P.qn_cQuat s.unit x)
  have hdev : IsDev (lostRate Ms Ss inp m m') := by
    unfold lostRate
    rw [hq]
    refine isDev_add (isDev_add (isDev_smul _ (isDev_smul _ (isDev_sub (vecdToSymm_isDev _) (vecdToSymm_isDev _))))
      (isDev_dev_sym _)) (isDev_smul _ (isDev_conjT hrot.1 hd))
  rw [frob_vecd hdev, key]
  unfold lostRate
  rw [hq, hg, he, ← heN, hPv, hPdt]

/-- **C92, accuracy.** A successful update accounts for the imposed deformation rate up to the tolerance times the
    larger of the imposed rate and 1e-6 per time step, if the imposed rate is at least 1e-8 of the reference rate of
    slip.  Below that the tolerance is measured against the reference rate itself. -/
theorem C92_accuracy (X : Ext) (hX : X.solver.Sound) (M : Material n nH) (Ms Ss : Fin n → Vec 3)
    (hgeom : M.geom = slipPQ Ms Ss) (inp : Inputs) (hdt : 0 < inp.dt) (hd : IsDev (devOfSvecP inp.d))
    (m m' : Mem nH n) (h : getResponseSngl X M inp m = .ok m') (v : M.kin.Vals) (sc : ℝ)
    (hv : M.kin.getVals (Step.eosUpdate M inp m).press (Step.tK M inp m) (histOf m').h = .ok (v, sc))
    (hA : 0 < M.kin.fixedRefRate v) :
    frob (lostRate Ms Ss inp m m')
      ≤ inp.tol * lostScale (frob (devOfSvecP inp.d)) (M.kin.fixedRefRate v) inp.dt := by
  obtain ⟨s⟩ := getResponseSngl_ok h
  obtain ⟨h1, h2⟩ := lostRate_eq hX hgeom hd s
  have hh : (histOf m').h = s.hU := by rw [OkStep.hist_eq s]; rfl
  rw [hh, s.hV] at hv
  obtain ⟨rfl, rfl⟩ := Prod.mk.inj (Out.ok.inj hv)
  have hPa : s.P.adotsRef = M.kin.fixedRefRate s.v := by rw [s.hP]
  have hPdt : s.P.dt = inp.dt := by rw [s.hP]
  have hPd : s.P.dSm = svecToVecd inp.d := by rw [s.hP]
  have e := inv_epsdotScaleInv_eq s.P (hPdt ▸ hdt) (hPa ▸ hA)
  have hs := s.P.epsdotScaleInv_pos (hPdt ▸ hdt) (hPa ▸ hA)
  rw [hPa, hPdt, hPd, ← frob_eq hd] at e
  rw [h1, ← e]
  have h3 := scaled_le_resid s.P (Step.solve X inp s.P).x
  rw [mul_one_div, le_div_iff₀ hs]
  linarith

/-- **C92, response.** When the rate that the tolerance allows to be lost is smaller than the imposed rate, the crystal
    responds: its elastic strain changes or it slips. -/
theorem C92_responds (X : Ext) (hX : X.solver.Sound) (M : Material n nH) (Ms Ss : Fin n → Vec 3)
    (hgeom : M.geom = slipPQ Ms Ss) (inp : Inputs) (hdt : 0 < inp.dt) (hd : IsDev (devOfSvecP inp.d))
    (m m' : Mem nH n) (h : getResponseSngl X M inp m = .ok m') (v : M.kin.Vals) (sc : ℝ)
    (hv : M.kin.getVals (Step.eosUpdate M inp m).press (Step.tK M inp m) (histOf m').h = .ok (v, sc))
    (hA : 0 < M.kin.fixedRefRate v)
    (htol : inp.tol * lostScale (frob (devOfSvecP inp.d)) (M.kin.fixedRefRate v) inp.dt < frob (devOfSvecP inp.d)) :
    (histOf m').e ≠ (histOf m).e ∨ (histOf m').gdot ≠ 0 := by
  by_contra hno
  push Not at hno
  obtain ⟨h1, h2⟩ := hno
  have h3 := C92_accuracy X hX M Ms Ss hgeom inp hdt hd m m' h v sc hv hA
  obtain ⟨s⟩ := getResponseSngl_ok h
  have hrot : IsRot (quatToTensor (histOf m').q) := by
    rw [show quatToTensor (histOf m').q = s.P.cMatx (Step.solve X inp s.P).x by
      rw [OkStep.hist_eq s]; exact quatToTensor_flip _ _]
    exact isRot_of_unit (s.P.qn_cQuat s.unit _)
  have e : frob (lostRate Ms Ss inp m m') = frob (devOfSvecP inp.d) := by
    have h0 : slipGrad (0 : Vec n) Ss Ms = 0 := by
      ext i j; simp [slipGrad]
    have h4 : dev (sym (0 : T3)) = 0 := by
      ext i j; simp [dev, sym]
    unfold lostRate
    rw [h1, h2, h0, h4]
    simp only [sub_self, smul_zero, zero_add]
    rw [show (-1 : ℝ) • ((quatToTensor (histOf m').q).transpose * devOfSvecP inp.d * quatToTensor (histOf m').q)
        = ((-1 : ℝ) • ((quatToTensor (histOf m').q).transpose * devOfSvecP inp.d)) * quatToTensor (histOf m').q by
      rw [Matrix.smul_mul], frob_mul_rot hrot.1]
    have h5 : frob ((-1 : ℝ) • ((quatToTensor (histOf m').q).transpose * devOfSvecP inp.d))
        = frob ((quatToTensor (histOf m').q).transpose * devOfSvecP inp.d) := by
      unfold frob
      congr 1
      simp [ddot]
    rw [h5, ← frob_transpose, Matrix.transpose_mul, Matrix.transpose_transpose, frob_mul_rot hrot.1, frob_transpose]
  rw [e] at h3
  linarith

/-- both theorems apply to the unit test of one update with power-law slip -/
example : ∃ (X : Ext) (m m' : Mem 1 12) (v : testMatA.kin.Vals) (sc : ℝ), X.solver.Sound ∧
    testMatA.geom = slipPQ fccM fccS ∧ 0 < (testInp (1 / 10 ^ 10)).dt ∧ IsDev (devOfSvecP (testInp (1 / 10 ^ 10)).d) ∧
    getResponseSngl X testMatA (testInp (1 / 10 ^ 10)) m = .ok m' ∧
    testMatA.kin.getVals (Step.eosUpdate testMatA (testInp (1 / 10 ^ 10)) m).press
      (Step.tK testMatA (testInp (1 / 10 ^ 10)) m) (histOf m').h = .ok (v, sc) ∧
    0 < testMatA.kin.fixedRefRate v ∧
    lostScale (frob (devOfSvecP (testInp (1 / 10 ^ 10)).d)) (testMatA.kin.fixedRefRate v) (testInp (1 / 10 ^ 10)).dt = 1 ∧
    frob (devOfSvecP (testInp (1 / 10 ^ 10)).d) = 1 := by
  obtain ⟨X, m', hX, h, -⟩ := C77_voce (tol := 1 / 10 ^ 10) (by norm_num) 0 0
  obtain ⟨s⟩ := getResponseSngl_ok h
  have hh : (histOf m').h = s.hU := by rw [OkStep.hist_eq s]; rfl
  have hf : frob (devOfSvecP (testInp (1 / 10 ^ 10)).d) = 1 := by
    rw [frob_eq (testInp_dev _), testInp_d]
    unfold vecNorm
    simp [Fin.sum_univ_five]
  refine ⟨X, _, m', s.v, s.scale, hX, rfl, by norm_num [testInp], testInp_dev _, h, by rw [hh]; exact s.hV, ?_, ?_, hf⟩
  · show 0 < (testVoce false).gamW
    norm_num [testVoce]
  · rw [hf]
    show lostScale 1 (testVoce false).gamW (1 / 10) = 1
    unfold lostScale
    rw [if_neg (by norm_num [testVoce])]
    norm_num

/-! ### Loading too slow to be noticed -/

/-- a solver that tries `S` first; it finds a point whenever there is one -/
noncomputable def orIdeal (S : Solver n) : Solver n := fun P tol k x0 =>
  if (S P tol k x0).converged = true then S P tol k x0 else idealSolver n P tol k x0

theorem orIdeal_finds {S : Solver n} (hS : S.Sound) : Finds (orIdeal S) := by
  refine ⟨fun P tol k x0 h => ?_, fun P tol k x0 h => ?_⟩
  · unfold orIdeal at h ⊢
    by_cases hc : (S P tol k x0).converged = true
    · rw [if_pos hc] at h ⊢; exact hS P tol k x0 h
    · rw [if_neg hc] at h ⊢; exact idealSolver_sound n P tol k x0 h
  · unfold orIdeal
    by_cases hc : (S P tol k x0).converged = true
    · rw [if_pos hc]; exact hc
    · rw [if_neg hc]; exact (idealSolver_finds n).found P tol k x0 h

theorem orIdeal_first {S : Solver n} {P : Problem n} {tol : ℝ} {k : ℕ} {x0 : Vec n} {r : SolveResult n}
    (h : S P tol k x0 = r) (hr : r.converged = true) : orIdeal S P tol k x0 = r := by
  unfold orIdeal
  rw [h, if_pos hr]

theorem probe_of_le (P : Updst n) {x : Vec 8} {tol : ℝ} (h : vecNorm (P.resid x) ≤ tol) (k : ℕ) :
    probe 8 P.problem tol k x = { converged := true, x := x, xLast := x, nFEvals := 1 } := by
  unfold probe
  simp only [Updst.problem, h, decide_true]

/-- the library with a solver that looks at the starting point first -/
noncomputable def lazyExt : Ext where
  solver := orIdeal (probe 8)
  lup := fun _ _ => none
  evalCost := 1

/-- a successful update without tangent, from the outcome of the solver -/
theorem step_of_solve {X : Ext} {M : Material n nH} {inp : Inputs} {m : Mem nH n} {hU : Vec nH} {P : Updst n}
    {x : Vec 8} {c : ℕ} {G : ℝ} (hset : Step.setup M inp m = .ok (hU, P))
    (hsol : Step.solve X inp P = { converged := true, x := x, xLast := x, nFEvals := c }) (ht : m.mtan = none)
    (hG : M.el.getGmod = .ok G) :
    ∃ m', getResponseSngl X M inp m = .ok m' ∧ (histOf m').e = P.eF x ∧
      (histOf m').q = Step.flipQuat (P.cQuat x) P.cN ∧ (histOf m').h = hU ∧ (histOf m').gdot = P.gdot x ∧
      m'.stress = Step.stressOf P (P.eF x) (P.cQuat x) ∧ m'.mtan = none ∧
      m'.eInt = (Step.eosUpdate M inp m).eNew + (Step.halfVMidDt inp * vecsInnerSvecDev m.stress inp.d
        + Step.halfVMidDt inp * vecsInnerSvecDev m'.stress inp.d) := by
  unfold getResponseSngl
  rw [hset]
  simp only [Step.run, hsol, hG, ht, Step.tangent]
  refine ⟨_, rfl, ?_⟩
  refine ⟨?_, ?_, ?_, ?_, rfl, rfl, rfl⟩ <;> simp only [histOf, Hist.ofArray_toArray] <;> rfl

/-- a crystal at rest without stress: no elastic strain, no slip, the hardness `h`; the temperature comes from the
    energy `E` -/
structure Relaxed (h : Vec nH) (E : ℝ) (m : Mem nH n) : Prop where
  e : (histOf m).e = 0
  q : (histOf m).q ≠ 0
  h : (histOf m).h = h
  gdot : (histOf m).gdot = 0
  dev : ∀ i : Fin 7, i ≠ 6 → m.stress i = 0
  energy : m.eInt = E
  mtan : m.mtan = none

/-- what is asked of the kinetics: without slip the hardness `h` keeps its value; at the temperature `T` the reference
    rate is at least `A`, and there is no slip without stress -/
structure RestsAt (K : Kin n nH) (h : Vec nH) (T A : ℝ) : Prop where
  hard : ∀ dt, 0 < dt → ∃ c, K.updateH h dt 0 = .ok (h, c)
  vals : ∀ p, ∃ v sc, K.getVals p T h = .ok (v, sc) ∧ A ≤ K.fixedRefRate v ∧ ∀ s, (K.evalGdot v s 0).gdot = 0

/-- a slow loading without spin; the volume is free -/
structure Quiet (A : ℝ) (inp : Inputs) : Prop where
  dt : 0 < inp.dt
  dev : IsDev (devOfSvecP inp.d)
  tol : frob (devOfSvecP inp.d) ≤ inp.tol * A
  slow : frob (devOfSvecP inp.d) < A / 10 ^ 8
  w : inp.w = 0
  vol : 0 < inp.vr 1

/-- a slow loading without spin at constant volume -/
structure SlowLoad (A : ℝ) (inp : Inputs) : Prop extends Quiet A inp where
  v0 : inp.vr 0 = 1
  v1 : inp.vr 1 = 1
  dv : inp.vr 3 = 0

theorem quiet_step {M : Material n nH} {c11 c12 c44 : ℝ} (hel : M.el = .cubic c11 c12 c44)
    (hc : c12 < c11 ∧ 0 < c44) (hcv : M.eos.cvav ≠ 0) {h : Vec nH} {E A : ℝ} (hA : 0 < A) {inp : Inputs}
    (hK : RestsAt M.kin h (M.eos.evalPT (inp.vr 0) E).2 A) (hi : Quiet A inp) {m : Mem nH n}
    (hm : Relaxed h E m) :
    ∃ m', getResponseSngl lazyExt M inp m = .ok m' ∧ Relaxed h (E - inp.vr 3 * m.stress 6) m' := by
  obtain ⟨c, hH⟩ := hK.hard inp.dt hi.dt
  obtain ⟨v, sc, hV, hvA, hg0⟩ := hK.vals (Step.eosUpdate M inp m).press
  have hT : Step.tK M inp m = (M.eos.evalPT (inp.vr 0) E).2 := by unfold Step.tK; rw [hm.energy]
  have hset := Step.setup_eq_ok (M := M) (inp := inp) (m := m) (hU := h) (kU := c) (v := v) (scale := sc) hm.q hcv
    hi.dt.ne' hi.vol
    (by rw [show (Hist.ofArray m.hist).h = h from hm.h, show (Hist.ofArray m.hist).gdot = 0 from hm.gdot]; exact hH)
    (by rw [hT]; exact hV)
  set P : Updst n := { geom := M.geom, el := M.el, gd := M.kin.evalGdot v, adotsRef := M.kin.fixedRefRate v,
                       hdnScale := sc, dt := inp.dt, detV := inp.vr 1,
                       eVref := (Step.eosUpdate M inp m).eNew, pEos := (Step.eosUpdate M inp m).press,
                       tK := Step.tK M inp m, eN := (Hist.ofArray m.hist).e, cN := Step.quatN m,
                       dSm := svecToVecd inp.d, wSm := inp.w } with hPdef
  have hPel : P.el = .cubic c11 c12 c44 := hel
  have heN : P.eN = 0 := hm.e
  have hcN : qn P.cN = 1 := qn_quatN hm.q
  have hPd : vecNorm P.dSm = frob (devOfSvecP inp.d) := (frob_eq hi.dev).symm
  have hPa : A ≤ P.adotsRef := hvA
  have ha : 0 < P.adotsRef := hA.trans_le hPa
  have hT0 : ∀ i : Fin 5, P.elastNEtoT 0 i.castSucc = 0 := C72_cubic P c11 c12 c44 hPel
  have hgd : P.gdot 0 = 0 := by
    funext s
    show (M.kin.evalGdot v s (P.taua 0 s)).gdot = 0
    have : P.taua 0 s = 0 := by
      unfold Updst.taua vecsVaTM
      rw [Updst.eF_zero, heN]
      simp [hT0]
    rw [this]; exact hg0 s
  have hE : P.residE 0 = fun i => -vecsVMTa (getRotMatVecd (quatToTensor P.cN)) P.dSm i := by
    funext i
    have h1 : vecsVMa P.geom.P (0 : Vec n) i = 0 := by simp [vecsVMa]
    unfold Updst.residE Updst.qr5x5 Updst.cMatx
    rw [Updst.edot_zero, hgd, h1, Updst.cQuat_zero]
    simp
  have hR : P.residR 0 = 0 := by
    funext i
    have h1 : vecsVMa P.geom.Q (0 : Vec n) i = 0 := by simp [vecsVMa]
    have h2 : vecsVMTa (P.cMatx 0) P.wSm i = 0 := by
      rw [show P.wSm = 0 from hi.w]; simp [vecsVMTa]
    have h3 : vecsVMa (m35 (P.eF 0)) (0 : Vec 5) i = 0 := by simp [vecsVMa]
    unfold Updst.residR
    rw [Updst.xiF_zero, hgd, h1, h2, Updst.edot_zero, h3]
    simp
  have hEn : vecNorm (P.residE 0) = frob (devOfSvecP inp.d) := by
    rw [hE, ← hPd]
    have := vecNorm_smul (-1) (vecsVMTa (getRotMatVecd (quatToTensor P.cN)) P.dSm)
    rw [vecNorm_vecsVMTa_rot (isRot_of_unit hcN).1] at this
    rw [show (fun i => -vecsVMTa (getRotMatVecd (quatToTensor P.cN)) P.dSm i)
      = (-1 : ℝ) • vecsVMTa (getRotMatVecd (quatToTensor P.cN)) P.dSm by funext i; simp, this]
    simp
  have hsc : P.epsdotScaleInv = 1 / P.adotsRef := by
    have := inv_epsdotScaleInv_eq P hi.dt ha
    unfold lostScale at this
    rw [if_pos (by rw [hPd]; refine hi.slow.trans_le ?_; gcongr)] at this
    rw [← this, one_div_one_div]
  have hres : vecNorm (P.resid 0) ≤ inp.tol := by
    refine abs_le_of_sq_le_sq' ?_ ?_ |>.2
    · rw [resid_norm_sq, hR, hEn, hsc]
      have h0 : vecNorm (0 : Vec 3) = 0 := by simp [vecNorm]
      rw [h0, mul_zero, zero_pow two_ne_zero, add_zero]
      have h1 : 1 / P.adotsRef * frob (devOfSvecP inp.d) ≤ inp.tol := by
        rw [one_div_mul_eq_div, div_le_iff₀ ha]
        refine hi.tol.trans ?_
        have h2 : 0 ≤ inp.tol * A := (frob_nonneg _).trans hi.tol
        have h3 : 0 ≤ inp.tol := nonneg_of_mul_nonneg_left h2 hA
        exact mul_le_mul_of_nonneg_left hPa h3
      have h4 : 0 ≤ 1 / P.adotsRef * frob (devOfSvecP inp.d) := mul_nonneg (by positivity) (frob_nonneg _)
      exact pow_le_pow_left₀ h4 h1 2
    · have h2 : 0 ≤ inp.tol * A := (frob_nonneg _).trans hi.tol
      exact nonneg_of_mul_nonneg_left h2 hA
  have hsol : Step.solve lazyExt inp P = { converged := true, x := 0, xLast := 0, nFEvals := 1 } := by
    exact orIdeal_first (probe_of_le P (x := 0) hres 200) rfl
  have hG := getGmod_of_stable (el := M.el) (by
    rw [hel]; intro k
    fin_cases k <;> simp [Elast.kDiag] <;> linarith [hc.1, hc.2])
  obtain ⟨m', h1, h2, h3, h4, h5, h6, h7, h8⟩ := step_of_solve hset hsol hm.mtan hG
  have hdev' : ∀ i : Fin 7, i ≠ 6 → m'.stress i = 0 := by
    have hlat : ∀ i : Fin 5, P.elastNEtoC (P.eF 0) i.castSucc = 0 := by
      intro i
      rw [Updst.eF_zero, heN]
      have := hT0 i
      unfold Updst.elastNEtoC
      simp only [Elast.getCauchy] at this ⊢
      fin_cases i <;> simp_all
    rw [h6]
    unfold Step.stressOf
    simp only [hlat]
    intro i hi
    fin_cases i <;> simp_all [vecdsToSvecP, vecsVMa]
  have hin0 : ∀ s : Vec 7, (∀ i : Fin 7, i ≠ 6 → s i = 0) → vecsInnerSvecDev s inp.d = 0 := by
    intro s hs
    unfold vecsInnerSvecDev
    rw [hs 0 (by decide), hs 1 (by decide), hs 2 (by decide), hs 3 (by decide), hs 4 (by decide), hs 5 (by decide)]
    ring
  refine ⟨m', h1, ⟨?_, ?_, h4, ?_, hdev', ?_, h7⟩⟩
  · rw [h2, Updst.eF_zero, heN]
  · rw [h3]
    intro h0
    have hq := P.qn_cQuat hcN 0
    rcases flipQuat_cases (P.cQuat 0) P.cN with ⟨h, -⟩ | ⟨h, -⟩
    · rw [← h, h0] at hq; simp [qn] at hq
    · rw [h, neg_eq_zero] at h0; rw [h0] at hq; simp [qn] at hq
  · rw [h5, hgd]
  · rw [h8, hin0 _ hm.dev, hin0 _ hdev']
    simp [Step.eosUpdate, Eos.updateSimple, hm.energy]

theorem slow_step {M : Material n nH} {c11 c12 c44 : ℝ} (hel : M.el = .cubic c11 c12 c44)
    (hc : c12 < c11 ∧ 0 < c44) (hcv : M.eos.cvav ≠ 0) {h : Vec nH} {E A : ℝ} (hA : 0 < A)
    (hK : RestsAt M.kin h (M.eos.evalPT 1 E).2 A) {inp : Inputs} (hi : SlowLoad A inp) {m : Mem nH n}
    (hm : Relaxed h E m) : ∃ m', getResponseSngl lazyExt M inp m = .ok m' ∧ Relaxed h E m' := by
  obtain ⟨m', h1, h2⟩ := quiet_step hel hc hcv hA (inp := inp) (by rw [hi.v0]; exact hK) hi.toQuiet hm
  rw [hi.dv, zero_mul, sub_zero] at h2
  exact ⟨m', h1, h2⟩

/-- **C92, refuted below 1e-8 of the reference rate.** The wish that every converged step follows the imposed rate is
    false for slow loading: when the imposed rate is below the tolerance times the reference rate, a solver that keeps
    its contract and always finds a solution may leave the crystal without elastic strain, slip and stress in every one
    of any number of steps of any lengths, however large the imposed strain becomes. -/
theorem C92_refuted_slow {M : Material n nH} {c11 c12 c44 : ℝ} (hel : M.el = .cubic c11 c12 c44)
    (hc : c12 < c11 ∧ 0 < c44) (hcv : M.eos.cvav ≠ 0) {h : Vec nH} {E A : ℝ} (hA : 0 < A)
    (hK : RestsAt M.kin h (M.eos.evalPT 1 E).2 A) (N : ℕ) (inp : ℕ → Inputs) (hi : ∀ k < N, SlowLoad A (inp k))
    (m₀ : Mem nH n) (hm : Relaxed h E m₀) :
    ∃ t : Trajectory M N, (∀ k, Finds (t.X k).solver) ∧ t.inp = inp ∧ t.m 0 = m₀ ∧ (∀ k, t.m (k + 1) = t.m' k) ∧
      ∀ k < N, Relaxed h E (t.m' k) := by
  let out : ℕ → Mem nH n → Mem nH n := fun j m =>
    match getResponseSngl lazyExt M (inp j) m with
    | .ok m' => m'
    | _ => m
  let m : ℕ → Mem nH n := fun j => Nat.rec m₀ (fun j m => out j m) j
  have key : ∀ j ≤ N, Relaxed h E (m j) := by
    intro j
    induction j with
    | zero => intro _; exact hm
    | succ j ih =>
      intro hj
      obtain ⟨m', h1, h2⟩ := slow_step hel hc hcv hA hK (hi j hj) (ih (by omega))
      have : m (j + 1) = m' := by
        show out j (m j) = m'
        simp only [out, h1]
      rw [this]; exact h2
  refine ⟨{ X := fun _ => lazyExt, inp := inp, m := m, m' := fun j => m (j + 1), ok := ?_, link := fun _ _ => rfl },
    fun _ => orIdeal_finds (probe_sound 8), rfl, rfl, fun _ => rfl, fun k hk => key (k + 1) hk⟩
  intro k hk
  obtain ⟨m', h1, -⟩ := slow_step hel hc hcv hA hK (hi k hk) (key k hk.le)
  show _ = Res.ok (out k (m k))
  simp only [out, h1]

/-- the hypotheses hold for the FCC crystal of the tests with dislocation kinetics, the tolerance 1e-10 and a
    thousand million steps of extension by 2 per cent each -/
example : ∃ (inp : Inputs) (m : Mem 1 12), inp.tol = 1 / 10 ^ 10 ∧ inp.dt * inp.d 2 = 2 / 100 ∧ SlowLoad 290 inp ∧
    RestsAt testMatB.kin (fun _ => testKM.hdnInit) (testMatB.eos.evalPT 1 0).2 290 ∧
    Relaxed (fun _ => testKM.hdnInit) 0 m ∧ testMatB.eos.cvav ≠ 0 ∧ testMatB.el = .cubic 3 1 1 := by
  have hdev : IsDev (devOfSvecP ![-1 / 10 ^ 8, -1 / 10 ^ 8, 2 / 10 ^ 8, 0, 0, 0, 0]) := by
    refine ⟨?_, ?_⟩
    · ext i j; fin_cases i <;> fin_cases j <;> simp [devOfSvecP]
    · simp [Matrix.trace, Fin.sum_univ_three, devOfSvecP]
      norm_num
  have hf : frob (devOfSvecP ![-1 / 10 ^ 8, -1 / 10 ^ 8, 2 / 10 ^ 8, 0, 0, 0, 0]) ≤ 25 / 10 ^ 9 := by
    unfold frob
    rw [Real.sqrt_le_left (by norm_num)]
    simp [ddot, Fin.sum_univ_three, devOfSvecP]
    norm_num
  refine ⟨{ dt := 10 ^ 6, tol := 1 / 10 ^ 10, d := ![-1 / 10 ^ 8, -1 / 10 ^ 8, 2 / 10 ^ 8, 0, 0, 0, 0], w := 0,
            vr := ![1, 1, 0, 0] }, testMem (fun _ => testKM.hdnInit) 0 0 none, rfl, by simp; norm_num,
    ⟨⟨by norm_num, hdev, hf.trans (by norm_num), hf.trans_lt (by norm_num), rfl, one_pos⟩, rfl, rfl, rfl⟩, ⟨?_, ?_⟩, ?_,
    by norm_num [testMatB, testEos], rfl⟩
  · intro dt _
    exact ⟨1, km_rest testKM (by norm_num [testKM]) (by norm_num [testKM]) (by norm_num [KMBalD.hdnMin, testKM]) dt 12⟩
  · intro p
    obtain ⟨sc, hV⟩ := km_vals testKM rfl rfl (fun _ => rfl) (fun _ => rfl) (fun _ => rfl) rfl
    have hT : (testMatB.eos.evalPT 1 0).2 = 300 := by
      simp [testMatB, Eos.evalPT, Eos.tK0, Eos.dtde0, testEos]
      norm_num
    rw [hT]
    refine ⟨testVals 1, sc, hV, ?_, fun s => ?_⟩
    · show 290 ≤ (testVals 1).gamW + (testVals 1).gamR
      norm_num [testVals]
    · exact (C28_sign testKM (testVals 1) s testKM_adm 0).2 (by norm_num [athermal, testKM])
  · refine ⟨?_, ?_, ?_, ?_, fun _ _ => rfl, rfl, rfl⟩ <;> simp only [histOf, testMem, Hist.ofArray_toArray]
    intro h
    have := congrFun h 0
    simp at this

/-! ### The polycrystal test -/

/-- the imposed rate of the test, in units of 1e-6 per time -/
noncomputable def pxDir : Vec 7 := ![-1 / 2, -1 / 2, 1, 0, 0, 0, 0]

/-- test/test_px.cxx:98-103, 110-113, 135-143: time step, rates and volume ratios of the first step; the tolerance is a parameter -/
noncomputable def pxInp (tol : ℝ) : Inputs where
  dt := 2000
  tol := tol
  d := fun i => 1 / 10 ^ 6 * pxDir i
  w := 0
  vr := ![1, 1, 0, 0]

/-- test/test_px.cxx:67-96, 116-123: the state before the first step, with the orientation `q`; KIN_TYPE 1 -/
noncomputable def pxMem (q : Vec 4) (T : ℝ) (sdd : Vec 2) : Mem 1 12 where
  eInt := 0
  stress := 0
  hist := ({ shrateEff := 0, shrEff := 0, flowStr := 0, nFEval := 0, e := 0, q := q, h := fun _ => testKM.hdnInit,
             gdot := 0 } : Hist 1 12).toArray
  tkelv := T
  sdd := sdd
  mtan := none

theorem px_d (tol : ℝ) : svecToVecd (pxInp tol).d = fun i => (![0, sqr3b2 / 10 ^ 6, 0, 0, 0] : Vec 5) i := by
  ext i
  fin_cases i <;> simp [svecToVecd, pxInp, pxDir]
  sqr_ring

theorem fcc_P_norm (s : Fin 12) : vecNorm (fun i => (slipPQ fccM fccS).P i s) ^ 2 = 1 / 2 := by
  rw [vecNorm_sq]
  fin_cases s <;> simp [Fin.sum_univ_five, slipPQ, fccM, fccS, matToP, vecsMsymm, vecsMaTb, symmToVecd] <;> sqr_ring

/-- the library with a solver that tries one given point first -/
noncomputable def tryExt (x : Vec 8) : Ext where
  solver := orIdeal (goTo x)
  lup := fun _ _ => none
  evalCost := 1

theorem px_step {tol φ : ℝ} (h0 : 0 ≤ φ) (h1 : φ ≤ 1) (hφ : (1 - φ) * (sqr3b2 / 10 ^ 6) ≤ 290 * tol) {q : Vec 4}
    (hq : q ≠ 0) (T : ℝ) (sdd : Vec 2) :
    ∃ x m', getResponseSngl (tryExt x) testMatB (pxInp tol) (pxMem q T sdd) = .ok m' ∧ m'.stress 2 = φ / 250 ∧
      (histOf m').gdot = 0 := by
  set m := pxMem q T sdd with hm
  set inp := pxInp tol with hinp
  have hhist : Hist.ofArray m.hist
      = { shrateEff := 0, shrEff := 0, flowStr := 0, nFEval := 0, e := 0, q := q, h := fun _ => testKM.hdnInit,
          gdot := 0 } := Hist.ofArray_toArray _
  obtain ⟨sc, hV⟩ := km_vals testKM rfl rfl (fun _ => rfl) (fun _ => rfl) (fun _ => rfl) rfl
  have hH : testMatB.kin.updateH (fun _ => testKM.hdnInit) 2000 0 = .ok (fun _ => testKM.hdnInit, 1) :=
    km_rest testKM (by norm_num [testKM]) (by norm_num [testKM]) (by norm_num [KMBalD.hdnMin, testKM]) 2000 12
  have hp : (Step.eosUpdate testMatB inp m).press = 0 := by
    simp [Step.eosUpdate, testMatB, Eos.updateSimple, Eos.evalPTDiff, testEos, hinp, pxInp, hm, pxMem]
  have he : (Step.eosUpdate testMatB inp m).eNew = 0 := by
    simp [Step.eosUpdate, Eos.updateSimple, hinp, pxInp, hm, pxMem]
  have hT : Step.tK testMatB inp m = 300 := by
    simp [Step.tK, testMatB, Eos.evalPT, Eos.tK0, Eos.dtde0, testEos, hm, pxMem]
    norm_num
  have hset := Step.setup_eq_ok (M := testMatB) (inp := inp) (m := m) (hU := fun _ => testKM.hdnInit) (kU := 1)
    (v := testVals 1) (scale := sc) (by rw [hhist]; exact hq) (by norm_num [testMatB, testEos])
    (by norm_num [hinp, pxInp]) (by norm_num [hinp, pxInp]) (by rw [hhist]; exact hH)
    (by rw [hT]; exact hV)
  rw [hp, he, hT, hhist] at hset
  set P : Updst 12 := { geom := testMatB.geom, el := testMatB.el, gd := testMatB.kin.evalGdot (testVals 1),
                        adotsRef := testMatB.kin.fixedRefRate (testVals 1), hdnScale := sc, dt := inp.dt,
                        detV := inp.vr 1, eVref := 0, pEos := 0, tK := 300, eN := 0, cN := Step.quatN m,
                        dSm := svecToVecd inp.d, wSm := inp.w } with hP
  have hcN : qn P.cN = 1 := qn_quatN (by rw [hhist]; exact hq)
  have hPv : P.detV = 1 := rfl
  have hPdt : P.dt = 2000 := rfl
  have hrot := isRot_of_unit hcN
  set Q := getRotMatVecd (quatToTensor P.cN) with hQ
  set u := vecsVMTa Q P.dSm with hu
  have hPd : vecNorm P.dSm = sqr3b2 / 10 ^ 6 := by
    have e : P.dSm = fun i => (![0, sqr3b2 / 10 ^ 6, 0, 0, 0] : Vec 5) i := px_d tol
    rw [e]
    unfold vecNorm
    have h3 : 0 ≤ sqr3b2 / 10 ^ 6 := div_nonneg (Real.sqrt_nonneg _) (by norm_num)
    rw [show (∑ i, (![0, sqr3b2 / 10 ^ 6, 0, 0, 0] : Vec 5) i * (![0, sqr3b2 / 10 ^ 6, 0, 0, 0] : Vec 5) i)
      = (sqr3b2 / 10 ^ 6) ^ 2 by simp [Fin.sum_univ_five]; ring, Real.sqrt_sq h3]
  have hun : vecNorm u = sqr3b2 / 10 ^ 6 := by rw [hu, hQ, vecNorm_vecsVMTa_rot hrot.1, hPd]
  have hs32 : sqr3b2 ^ 2 = 3 / 2 := by unfold sqr3b2; rw [Real.sq_sqrt (by norm_num)]
  have hs0 : 0 < sqr3b2 := Real.sqrt_pos.2 (by norm_num)
  set x := elasticX fun i => φ * 2000 * u i with hx
  have hinc : vecsVxa eScale (fun i => x (iE i)) = fun i => φ * 2000 * u i := by
    funext i
    show eScale * (block8 (fun i => φ * 2000 * u i / eScale) 0) (iE i) = _
    rw [block8_iE, mul_div_cancel₀ _ eScale_ne]
  have heF : P.eF x = fun i => φ * 2000 * u i := by
    funext i
    have h1 : P.eN i = 0 := rfl
    simp only [Updst.eF, hinc, vecsVapb, h1, add_zero]
  have hedot : P.edot x = fun i => φ * u i := by
    funext i
    simp only [Updst.edot, hinc, vecsVsa, Updst.dtRi, hPdt]
    ring
  have hxi : Updst.xiF x = 0 := by
    funext i
    simp [Updst.xiF, vecsVxa, hx, elasticX]
  have hcq : P.cQuat x = P.cN := by
    unfold Updst.cQuat
    rw [hxi, emapToQuat_zero, getCQuat_one]
  have hKd : ∀ i, P.el.kDiag i = 2 := by
    intro i
    show Elast.kDiag (.cubic 3 1 1) i = 2
    fin_cases i <;> norm_num [Elast.kDiag]
  have hg : P.gdot x = 0 := by
    funext s
    show (testKM.evalGdot (testVals 1) s (P.taua x s)).gdot = 0
    refine (C28_sign testKM (testVals 1) s testKM_adm _).2 ?_
    have h1 := P.taua_cubic (c11 := 3) (c12 := 1) (c44 := 1) rfl x s
    have h2 : P.taua x s = 4000 * φ * ∑ i, u i * (slipPQ fccM fccS).P i s := by
      rw [h1, P.aVri_one hPv, one_mul, heF, Finset.mul_sum]
      refine Finset.sum_congr rfl fun i _ => ?_
      rw [hKd]
      show _ * _ * (slipPQ fccM fccS).P i s = _
      ring
    have h3 : (∑ i, u i * (slipPQ fccM fccS).P i s) ^ 2 ≤ (sqr3b2 / 10 ^ 6) ^ 2 * (1 / 2) := by
      have := Finset.sum_mul_sq_le_sq_mul_sq Finset.univ u fun i => (slipPQ fccM fccS).P i s
      rw [← vecNorm_sq, ← vecNorm_sq, fcc_P_norm, hun] at this
      exact this
    have h4 : |P.taua x s| ≤ 4 / 1000 := by
      rw [← abs_of_pos (by norm_num : (0 : ℝ) < 4 / 1000)]
      refine sq_le_sq.1 ?_
      rw [h2, mul_pow]
      rw [div_pow, hs32] at h3
      have h5 : (4000 * φ) ^ 2 ≤ 4000 ^ 2 := by nlinarith
      calc (4000 * φ) ^ 2 * (∑ i, u i * (slipPQ fccM fccS).P i s) ^ 2
          ≤ 4000 ^ 2 * (3 / 2 / (10 ^ 6) ^ 2 * (1 / 2)) := mul_le_mul h5 h3 (sq_nonneg _) (by positivity)
        _ ≤ (4 / 1000) ^ 2 := by norm_num
    exact h4.trans (by norm_num [athermal, testKM])
  have hE : P.residE x = (φ - 1) • u := by
    funext i
    have h1 : vecsVMa P.geom.P (0 : Vec 12) i = 0 := by simp [vecsVMa]
    have h2 : vecsVMTa (P.qr5x5 x) P.dSm = u := by
      unfold Updst.qr5x5 Updst.cMatx
      rw [hcq]
    unfold Updst.residE
    rw [hedot, hg, h1, h2, P.aVri_one hPv]
    simp
    ring
  have hR : P.residR x = 0 := by
    funext i
    have h1 : vecsVMa P.geom.Q (0 : Vec 12) i = 0 := by simp [vecsVMa]
    have h2 : vecsVMTa (P.cMatx x) P.wSm i = 0 := by
      rw [show P.wSm = 0 from rfl]; simp [vecsVMTa]
    have h3 : vecsVMa (m35 (fun i => φ * 2000 * u i)) (fun i => φ * u i) i = 0 := by
      have a1 := Updst.m35_anti u u i
      have a2 : vecsVMa (m35 u) u i = 0 := by linarith
      rw [m35_smul]
      have : vecsVMa (fun i j => φ * 2000 * m35 u i j) (fun i => φ * u i) i
          = φ * 2000 * φ * vecsVMa (m35 u) u i := by
        simp only [vecsVMa, Finset.mul_sum]
        exact Finset.sum_congr rfl fun j _ => by ring
      rw [this, a2, mul_zero]
    unfold Updst.residR
    rw [hxi, hg, h1, h2, heF, hedot, h3]
    simp
  have href : P.adotsRef = 290 := by
    show (testVals 1).gamW + (testVals 1).gamR = 290
    norm_num [testVals]
  have hsc : P.epsdotScaleInv = 1 / 290 := by
    have := inv_epsdotScaleInv_eq P (by rw [hPdt]; norm_num) (by rw [href]; norm_num)
    unfold lostScale at this
    rw [href, hPd, if_pos (by
      have : sqr3b2 < 5 / 4 := by nlinarith
      rw [div_lt_div_iff₀ (by norm_num) (by norm_num)]
      nlinarith)] at this
    rw [← this, one_div_one_div]
  have htol : 0 ≤ tol := by
    have : 0 ≤ (1 - φ) * (sqr3b2 / 10 ^ 6) := mul_nonneg (by linarith) (by positivity)
    linarith
  have hres : vecNorm (P.resid x) ≤ tol := by
    refine abs_le_of_sq_le_sq' ?_ htol |>.2
    rw [resid_norm_sq, hR, hE, hsc, vecNorm_smul, hun]
    have h0' : vecNorm (0 : Vec 3) = 0 := by simp [vecNorm]
    rw [h0', mul_zero, zero_pow two_ne_zero, add_zero, abs_sub_comm, abs_of_nonneg (by linarith : 0 ≤ 1 - φ)]
    refine pow_le_pow_left₀ (mul_nonneg (by norm_num) (mul_nonneg (by linarith) (by positivity))) ?_ 2
    linarith
  have hsol : Step.solve (tryExt x) inp P = { converged := true, x := x, xLast := x, nFEvals := 1 } :=
    orIdeal_first (probe_of_le P hres 200) rfl
  have hG := getGmod_of_stable (el := testMatB.el) (by
    intro k; exact (hKd k).symm ▸ (by norm_num))
  obtain ⟨m', k1, k2, k3, k4, k5, k6, k7, k8⟩ := step_of_solve hset hsol rfl hG
  refine ⟨x, m', k1, ?_, by rw [k5, hg]⟩
  have hlat : (fun i : Fin 5 => P.elastNEtoC (P.eF x) i.castSucc) = fun i => 2 * (φ * 2000) * u i := by
    funext i
    rw [heF]
    have hav : P.aVri = 1 := P.aVri_one hPv
    simp only [Updst.elastNEtoC, Elast.getCauchy, Updst.elastNEtoT, Updst.detVRi, hPv, hav,
      show P.el = .cubic 3 1 1 from rfl, Elast.eval, vecsVxa]
    have hK' : ∀ i, Elast.kDiag (.cubic 3 1 1) i = 2 := hKd
    fin_cases i <;> simp [hK'] <;> ring
  have hback : vecsVMa Q u = P.dSm := by
    have := (getRotMatVecd_orth hrot.1 hrot.2.1).1
    show Q.mulVec (Q.transpose.mulVec P.dSm) = P.dSm
    rw [Matrix.mulVec_mulVec, this, Matrix.one_mulVec]
  rw [k6, hcq]
  unfold Step.stressOf
  simp only [hlat]
  rw [← hQ, show (fun i => 2 * (φ * 2000) * u i) = fun i => (2 * (φ * 2000)) * u i from rfl, vecsVMa_smul, hback,
    show P.dSm = fun i => (![0, sqr3b2 / 10 ^ 6, 0, 0, 0] : Vec 5) i from px_d tol]
  simp [vecdsToSvecP]
  sqr_ring

/-- **C92, the polycrystal test.** In the first step of test/test_px.cxx with dislocation kinetics, for every
    orientation, the crystal is purely elastic and the equations of the step give the axial stress 0.004; with the
    tolerance 1e-10 of the test a solver that keeps its contract may return any stress from 0.00392 to 0.004.  The test
    expects an agreement of 1e-10 for the mean of such stresses. -/
theorem C92_refuted_px (q : Vec 4) (hq : q ≠ 0) (T : ℝ) (sdd : Vec 2) :
    (∃ X m', Finds X.solver ∧ getResponseSngl X testMatB (pxInp 0) (pxMem q T sdd) = .ok m' ∧
      m'.stress 2 = 4 / 1000) ∧
    ∀ σ, 392 / 10 ^ 5 ≤ σ → σ ≤ 4 / 1000 →
      ∃ X m', Finds X.solver ∧ getResponseSngl X testMatB (pxInp (1 / 10 ^ 10)) (pxMem q T sdd) = .ok m' ∧
        m'.stress 2 = σ := by
  have hs32 : sqr3b2 ^ 2 = 3 / 2 := by unfold sqr3b2; rw [Real.sq_sqrt (by norm_num)]
  have hs0 : 0 < sqr3b2 := Real.sqrt_pos.2 (by norm_num)
  constructor
  · obtain ⟨x, m', h1, h2, -⟩ := px_step (tol := 0) (φ := 1) (by norm_num) le_rfl (by norm_num) hq T sdd
    exact ⟨_, m', orIdeal_finds (goTo_sound x), h1, by rw [h2]; norm_num⟩
  · intro σ hl hu
    obtain ⟨x, m', h1, h2, -⟩ := px_step (tol := 1 / 10 ^ 10) (φ := 250 * σ) (by norm_num at hl; linarith)
      (by linarith) (by
        have h3 : 1 - 250 * σ ≤ 1 / 50 := by norm_num at hl ⊢; linarith
        have h4 : sqr3b2 < 5 / 4 := by nlinarith
        have h5 : (1 - 250 * σ) * (sqr3b2 / 10 ^ 6) ≤ 1 / 50 * (5 / 4 / 10 ^ 6) :=
          mul_le_mul h3 (by gcongr) (by positivity) (by norm_num)
        refine h5.trans ?_
        norm_num) hq T sdd
    exact ⟨_, m', orIdeal_finds (goTo_sound x), h1, by rw [h2]; ring⟩

end Ecm.Props
