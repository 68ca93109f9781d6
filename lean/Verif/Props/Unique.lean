/- Property theorems C70: the elastic strain an update returns does not depend on how the solver found it
   (src/ecmech/ECMech_evptn.h, computeRJ and getResponseSngl). -/
import Verif.Props.Stability
import Verif.Props.Voce

namespace Ecm.Props
open Ecm Spec Matrix

variable {n nH : ℕ}

/-- while both magnitudes stay below `B`, the slip rates rise with the stress -/
def MonotoneBelow (K : Kin n nH) (B : ℝ) : Prop :=
  ∀ p T h v sc, K.getVals p T h = .ok (v, sc) → ∀ i τ₁ τ₂, |(K.evalGdot v i τ₁).gdot| < B →
    |(K.evalGdot v i τ₂).gdot| < B → τ₁ ≤ τ₂ → (K.evalGdot v i τ₁).gdot ≤ (K.evalGdot v i τ₂).gdot

/-- C70 the power-law kinetics are monotone below the rate that replaces an overflow. -/
theorem C70_voce (k : Voce) (hm : 0 < k.xm) (hw : 0 < k.gamW) (S : Solver 1) :
    MonotoneBelow (k.kin S n) (10 ^ 45 * k.gamW) := by
  intro p h0 h v sc hv i τ₁ τ₂ h1 h2 h12
  simp only [Voce.kin] at hv
  split_ifs at hv with hg
  cases hv
  have key : ∀ τ, |(k.evalGdot (h 0) τ).gdot| < 10 ^ 45 * k.gamW → |τ| ≤ (10 ^ 60 : ℝ) ^ k.xm * h 0 := by
    intro τ hτ
    by_contra hc
    rw [not_le, ← lt_div_iff₀ hg] at hc
    rw [C24_overflow k hm hw.le _ τ hg hc, abs_mul, abs_of_pos (by positivity : 0 < 10 ^ 45 * k.gamW)] at hτ
    split_ifs at hτ <;> norm_num at hτ
  exact C26_monotone_below_overflow k hm hw _ hg _ _ h12 (key _ h1) (key _ h2)

theorem setup_same {X Y : Ext} {M : Material n nH} {inp : Inputs} {m m1 m2 : Mem nH n}
    (s : OkStep X M inp m m1) (t : OkStep Y M inp m m2) : s.P = t.P ∧ s.hU = t.hU := by
  have h1 := s.hH; rw [t.hH] at h1
  have hU : t.hU = s.hU := (Prod.mk.inj (Out.ok.inj h1)).1
  have h2 := s.hV; rw [← hU, t.hV] at h2
  obtain ⟨hv, hs⟩ := Prod.mk.inj (Out.ok.inj h2)
  refine ⟨?_, hU.symm⟩
  rw [s.hP, t.hP, hv, hs]

theorem kDiag_le {el : Elast} {κ : ℝ} (hκ : ∀ E, IsDev E → ddot E (refStress el E) ≤ κ * ddot E E)
    (k : Fin 5) : el.kDiag k ≤ κ := by
  have h := hκ _ (vecdToSymm_isDev (Pi.single k 1))
  have e1 : ∀ v : Vec 5, ddot (vecdToSymm v) (refStress el (vecdToSymm v))
      = ∑ k, el.kDiag k * v k ^ 2 := by
    intro v
    cases el <;>
      simp only [ddot, Fin.sum_univ_three, Fin.sum_univ_five, refStress, cubicStress, hexagStress,
        Elast.kDiag, vecdToSymm, ofSvecP, vecdsToSvecP, Matrix.of_apply, Matrix.cons_val] <;> sqr_ring
  have e2 : ∀ v : Vec 5, ddot (vecdToSymm v) (vecdToSymm v) = ∑ k, v k ^ 2 := by
    intro v
    simp only [ddot, Fin.sum_univ_three, Fin.sum_univ_five, vecdToSymm, ofSvecP, vecdsToSvecP,
      Matrix.of_apply, Matrix.cons_val]
    sqr_ring
  rw [e1, e2] at h
  fin_cases k <;> simpa [Fin.sum_univ_five, Pi.single_apply] using h

theorem frob_vecd {A : T3} (hA : IsDev A) : frob A = vecNorm (symmToVecd A) := by
  unfold frob vecNorm
  congr 1
  have e2 := vecdToSymm_symmToVecd _ hA
  generalize symmToVecd A = u at e2
  rw [← e2]
  simp only [ddot, Fin.sum_univ_three, Fin.sum_univ_five, vecdToSymm, ofSvecP, vecdsToSvecP,
    Matrix.of_apply, Matrix.cons_val]
  sqr_ring

theorem vecdToSymm_sub (a b : Vec 5) : vecdToSymm a - vecdToSymm b = vecdToSymm (a - b) := by
  ext i j
  fin_cases i <;> fin_cases j <;> simp [vecdToSymm, ofSvecP, vecdsToSvecP] <;> ring

theorem symmToVecd_sub (A B : T3) : symmToVecd A - symmToVecd B = symmToVecd (A - B) := by
  ext i
  fin_cases i <;> simp [symmToVecd] <;> ring

/-- **C70.** Two updates from the same memory with the same inputs, made with different solvers (or
    different starting points, or a different number of iterations): the elastic strains differ by no more
    than the difference of the imposed rate seen from the two returned lattice orientations and the solver
    tolerance allow.  Holds for stable cubic and hexagonal elasticity. -/
theorem C70_strain (X Y : Ext) (hX : X.solver.Sound) (hY : Y.solver.Sound) (M : Material n nH) (κ : ℝ)
    (hst : ∀ E, IsDev E → E ≠ 0 → 0 < ddot E (refStress M.el E))
    (hκ : ∀ E, IsDev E → ddot E (refStress M.el E) ≤ κ * ddot E E)
    (A B : ℝ) (hA : RefRateAtMost M.kin A) (hB : MonotoneBelow M.kin B)
    (inp : Inputs) (hdt : 0 < inp.dt) (hd : IsDev (devOfSvecP inp.d)) (m m1 m2 : Mem nH n)
    (h1 : getResponseSngl X M inp m = .ok m1) (h2 : getResponseSngl Y M inp m = .ok m2)
    (hB1 : ∀ i, |(histOf m1).gdot i| < B) (hB2 : ∀ i, |(histOf m2).gdot i| < B) :
    energyNorm M.el (vecdToSymm (histOf m1).e - vecdToSymm (histOf m2).e)
      ≤ inp.dt * (inp.vr 1) ^ (1 / 3 : ℝ) * (Real.sqrt κ *
        (frob ((quatToTensor (histOf m1).q).transpose * devOfSvecP inp.d * quatToTensor (histOf m1).q
            - (quatToTensor (histOf m2).q).transpose * devOfSvecP inp.d * quatToTensor (histOf m2).q)
          + 2 * (inp.tol * (A + frob (devOfSvecP inp.d) + 1 / 10 ^ 6 / inp.dt)))) := by
  obtain ⟨s⟩ := getResponseSngl_ok h1
  obtain ⟨t⟩ := getResponseSngl_ok h2
  have hPP := (setup_same s t).1
  have res : ∀ (Z : Ext) (hZ : Z.solver.Sound) (m' : Mem nH n) (u : OkStep Z M inp m m'),
      (histOf m').e = u.P.eF (Step.solve Z inp u.P).x ∧
      (histOf m').gdot = u.P.gdot (Step.solve Z inp u.P).x ∧
      quatToTensor (histOf m').q = u.P.cMatx (Step.solve Z inp u.P).x ∧
      vecNorm (u.P.resid (Step.solve Z inp u.P).x) ≤ inp.tol := by
    intro Z hZ m' u
    have hlast : Step.lastX (Step.solve Z inp u.P) m.mtan.isSome = (Step.solve Z inp u.P).x := by
      unfold Step.lastX
      split_ifs
      · rfl
      · exact (hZ _ _ _ _ u.hc).2
    refine ⟨by rw [OkStep.hist_eq u]; rfl, ?_, ?_, ?_⟩
    · rw [OkStep.hist_eq u, ← hlast]; rfl
    · rw [OkStep.hist_eq u]; exact quatToTensor_flip _ _
    · obtain ⟨⟨r, J, hr, hrt⟩, -⟩ := hZ _ _ _ _ u.hc
      have : some (u.P.resid (Step.solve Z inp u.P).x, _) = some (r, J) := hr
      rwa [← (Prod.mk.inj (Option.some.inj this)).1] at hrt
  obtain ⟨e1, g1, q1, r1⟩ := res X hX m1 s
  obtain ⟨e2, g2, q2, r2⟩ := res Y hY m2 t
  rw [← hPP] at e2 g2 q2 r2
  generalize (Step.solve X inp s.P).x = x at e1 g1 q1 r1
  generalize (Step.solve Y inp s.P).x = y at e2 g2 q2 r2
  have hPel : s.P.el = M.el := by rw [s.hP]
  have hPdt : s.P.dt = inp.dt := by rw [s.hP]
  have hPv : s.P.detV = inp.vr 1 := by rw [s.hP]
  have hPd : s.P.dSm = svecToVecd inp.d := by rw [s.hP]
  have hPa : s.P.adotsRef = M.kin.fixedRefRate s.v := by rw [s.hP]
  have hgd : s.P.gd = M.kin.evalGdot s.v := by rw [s.hP]
  have hcn : qn s.P.cN = 1 := by rw [s.hP]; exact qn_quatN s.hq
  obtain ⟨ha0, ha1⟩ := hA _ _ _ _ _ s.hV
  rw [← hPa] at ha0 ha1
  have hkp : ∀ k, 0 < s.P.el.kDiag k := by rw [hPel]; exact (C47_positive_definite M.el).1 hst
  have hkk : ∀ k, s.P.el.kDiag k ≤ κ := by rw [hPel]; exact kDiag_le hκ
  have hsub := s.P.wNorm_sub hkp hkk (hPdt ▸ hdt) (hPv ▸ s.hv) x y (fun i => by
    have b1 := hB1 i; have b2 := hB2 i
    rw [g1] at b1; rw [g2] at b2
    simp only [Updst.gdot, hgd] at b1 b2 ⊢
    rcases le_total (s.P.taua x i) (s.P.taua y i) with hle | hle
    · exact mul_nonneg_of_nonpos_of_nonpos (by linarith)
        (by have := hB _ _ _ _ _ s.hV i _ _ b1 b2 hle; linarith)
    · exact mul_nonneg (by linarith) (by have := hB _ _ _ _ _ s.hV i _ _ b2 b1 hle; linarith))
  have hresx := s.P.residE_le (hPdt ▸ hdt) ha0 r1
  have hresy := s.P.residE_le (hPdt ▸ hdt) ha0 r2
  have htol : 0 ≤ inp.tol := (vecNorm_nonneg _).trans r1
  have hdS : s.P.dSm = symmToVecd (devOfSvecP inp.d) := by
    rw [hPd]
    obtain ⟨h1, h2, h3, h4⟩ := (isDev_iff _).1 hd
    simp [devOfSvecP] at h4
    funext i
    fin_cases i <;> simp [svecToVecd, symmToVecd, devOfSvecP]
    rw [h4]
    sqr_ring
  have hrot : ∀ z, vecsVMTa (s.P.qr5x5 z) s.P.dSm
      = symmToVecd ((s.P.cMatx z).transpose * devOfSvecP inp.d * s.P.cMatx z) := by
    intro z; rw [hdS]; exact vecsVMTa_rot (s.P.qn_cQuat hcn z) hd
  have hdev : ∀ z, IsDev ((s.P.cMatx z).transpose * devOfSvecP inp.d * s.P.cMatx z) := fun z =>
    isDev_conjT (isRot_of_unit (s.P.qn_cQuat hcn z)).1 hd
  rw [hrot, hrot, symmToVecd_sub, ← frob_vecd (isDev_sub (hdev _) (hdev _)), ← q1, ← q2, ← e1, ← e2,
    hPel, ← energyNorm_eq, ← vecdToSymm_sub] at hsub
  refine hsub.trans ?_
  rw [frob_eq hd, ← hPd, ← hPdt, ← hPv]
  have haV := s.P.aV_pos (hPv ▸ s.hv)
  refine mul_le_mul_of_nonneg_left ?_ (mul_pos (hPdt ▸ hdt) haV).le
  refine mul_le_mul_of_nonneg_left ?_ (Real.sqrt_nonneg _)
  have := mul_le_mul_of_nonneg_left ha1 htol
  nlinarith [hresx, hresy]

/-- **C70, exact solves.** If both solvers satisfy the equations exactly and agree on the lattice
    orientation, they agree on elastic strain, stress, slip rates and internal energy. -/
theorem C70_exact (X Y : Ext) (hX : X.solver.Sound) (hY : Y.solver.Sound) (M : Material n nH)
    (hst : ∀ E, IsDev E → E ≠ 0 → 0 < ddot E (refStress M.el E))
    (A B : ℝ) (hA : RefRateAtMost M.kin A) (hB : MonotoneBelow M.kin B)
    (inp : Inputs) (hdt : 0 < inp.dt) (hd : IsDev (devOfSvecP inp.d)) (m m1 m2 : Mem nH n)
    (h1 : getResponseSngl X M inp m = .ok m1) (h2 : getResponseSngl Y M inp m = .ok m2)
    (hB1 : ∀ i, |(histOf m1).gdot i| < B) (hB2 : ∀ i, |(histOf m2).gdot i| < B)
    (htol : inp.tol = 0) (hq : (histOf m1).q = (histOf m2).q) :
    (histOf m1).e = (histOf m2).e ∧ m1.stress = m2.stress ∧ (histOf m1).gdot = (histOf m2).gdot ∧
      m1.eInt = m2.eInt := by
  have hpos := (C47_positive_definite M.el).1 hst
  obtain ⟨κ, hκ⟩ : ∃ κ, ∀ E, IsDev E → ddot E (refStress M.el E) ≤ κ * ddot E E := by
    refine ⟨∑ k, M.el.kDiag k, fun E hE => ?_⟩
    have hle := wNorm_le (fun k => (hpos k).le) (κ := ∑ k, M.el.kDiag k)
      (fun k => Finset.single_le_sum (f := fun k => M.el.kDiag k) (fun i _ => (hpos i).le)
        (Finset.mem_univ k)) (symmToVecd E)
    have h0 : 0 ≤ ∑ k, M.el.kDiag k := Finset.sum_nonneg fun k _ => (hpos k).le
    rw [← energyNorm_eq, vecdToSymm_symmToVecd E hE, ← frob_vecd hE] at hle
    unfold energyNorm frob at hle
    rw [← Real.sqrt_mul h0] at hle
    have hn : 0 ≤ ddot E E := by
      simp only [ddot, Fin.sum_univ_three]
      have := mul_self_nonneg (E 0 0); have := mul_self_nonneg (E 0 1)
      have := mul_self_nonneg (E 0 2); have := mul_self_nonneg (E 1 0)
      have := mul_self_nonneg (E 1 1); have := mul_self_nonneg (E 1 2)
      have := mul_self_nonneg (E 2 0); have := mul_self_nonneg (E 2 1)
      have := mul_self_nonneg (E 2 2)
      linarith
    exact (Real.sqrt_le_sqrt_iff (mul_nonneg h0 hn)).1 hle
  have hs := C70_strain X Y hX hY M κ hst hκ A B hA hB inp hdt hd m m1 m2 h1 h2 hB1 hB2
  have hz : frob (0 : T3) = 0 := by simp [frob, ddot]
  rw [hq, sub_self, hz, htol, zero_mul, mul_zero, add_zero, mul_zero, mul_zero] at hs
  have he : (histOf m1).e = (histOf m2).e := by
    by_contra hne
    have hE : vecdToSymm (histOf m1).e - vecdToSymm (histOf m2).e ≠ 0 := by
      rw [vecdToSymm_sub]
      intro h0
      have := symmToVecd_vecdToSymm ((histOf m1).e - (histOf m2).e)
      rw [h0] at this
      apply hne
      have h5 : symmToVecd (0 : T3) = 0 := by
        ext i; fin_cases i <;> simp [symmToVecd]
      rw [h5] at this
      exact sub_eq_zero.1 this.symm
    have hp := hst _ (isDev_sub (vecdToSymm_isDev _) (vecdToSymm_isDev _)) hE
    exact absurd (Real.sqrt_pos.2 hp) (not_lt.2 hs)
  have hstr : m1.stress = m2.stress := by
    rw [C53_stress_from_state X M inp m m1 h1 _ (.inl rfl),
      C53_stress_from_state Y M inp m m2 h2 _ (.inl rfl), he, hq]
  refine ⟨he, hstr, ?_, ?_⟩
  · obtain ⟨s⟩ := getResponseSngl_ok h1
    obtain ⟨t⟩ := getResponseSngl_ok h2
    have hPP := (setup_same s t).1
    have res : ∀ (Z : Ext) (hZ : Z.solver.Sound) (m' : Mem nH n) (u : OkStep Z M inp m m'),
        (histOf m').e = u.P.eF (Step.solve Z inp u.P).x ∧
        (histOf m').gdot = u.P.gdot (Step.solve Z inp u.P).x := by
      intro Z hZ m' u
      have hlast : Step.lastX (Step.solve Z inp u.P) m.mtan.isSome = (Step.solve Z inp u.P).x := by
        unfold Step.lastX
        split_ifs
        · rfl
        · exact (hZ _ _ _ _ u.hc).2
      exact ⟨by rw [OkStep.hist_eq u]; rfl, by rw [OkStep.hist_eq u, ← hlast]; rfl⟩
    obtain ⟨e1, g1⟩ := res X hX m1 s
    obtain ⟨e2, g2⟩ := res Y hY m2 t
    rw [g1, g2, ← hPP]
    rw [← hPP] at e2
    have e3 := e1.symm.trans (he.trans e2)
    funext i
    simp only [Updst.gdot, Updst.taua, e3]
  · rw [C23_energy X M inp m m1 h1, C23_energy Y M inp m m2 h2, hstr]

/-- a small elastic strain -/
noncomputable def smallE : Vec 5 := ![1 / 10, 0, 0, 0, 0]

theorem small_gdot (i : Fin 12) (d : Vec 5) (w : Vec 3) :
    |(exProb exEl smallE d w).gdot 0 i| < 10 ^ 45 * 1 := by
  set P := exProb exEl smallE d w with hP
  have h1 := (fcc_slip i).1
  have h2 := (fcc_slip i).2.1
  have hbd : ∀ u : Vec 3, dot u u = 1 → ∀ j, |u j| ≤ 1 := by
    intro u hu j
    rw [← sq_le_one_iff_abs_le_one]
    simp only [dot, Fin.sum_univ_three] at hu
    have hj : j = 0 ∨ j = 1 ∨ j = 2 := by fin_cases j <;> simp
    rcases hj with rfl | rfl | rfl <;> nlinarith [sq_nonneg (u 0), sq_nonneg (u 1), sq_nonneg (u 2)]
  have hτ : |P.taua 0 i| ≤ 1 := by
    have he : P.eF 0 = smallE := by
      ext k; simp [Updst.eF, hP, exProb, vecsVapb, vecsVxa]
    rw [P.taua_cubic (c11 := 3) (c12 := 1) (c44 := 1) rfl, he]
    have ha : |P.aVri| ≤ 1 := by
      have : 1 ≤ P.aV := by
        show (1 : ℝ) ≤ (2 : ℝ) ^ (1 / 3 : ℝ)
        exact Real.one_le_rpow (by norm_num) (by norm_num)
      unfold Updst.aVri
      rw [abs_of_pos (by positivity), div_le_one (by linarith)]; exact this
    have hs : |∑ k, P.el.kDiag k * smallE k * P.geom.P k i| ≤ 1 := by
      have e : ∑ k, P.el.kDiag k * smallE k * P.geom.P k i
          = 1 / 5 * (sqr2i * (fccS i 0 * fccM i 0 - fccS i 1 * fccM i 1)) := by
        simp [Fin.sum_univ_five, smallE, hP, exProb, exEl, Elast.kDiag, slipPQ, matToP, vecsMaTb, symmToVecd,
          vecsMsymm]
        ring
      rw [e]
      have a0 := hbd _ h1 0; have a1 := hbd _ h1 1
      have b0 := hbd _ h2 0; have b1 := hbd _ h2 1
      have hq : |sqr2i| ≤ 1 := by
        rw [← sq_le_one_iff_abs_le_one, sq, sqr2i_sq]; norm_num
      rw [abs_mul, abs_mul]
      have c0 : |fccS i 0 * fccM i 0| ≤ 1 := by
        rw [abs_mul]; exact mul_le_one₀ b0 (abs_nonneg _) a0
      have c1 : |fccS i 1 * fccM i 1| ≤ 1 := by
        rw [abs_mul]; exact mul_le_one₀ b1 (abs_nonneg _) a1
      have c2 : |fccS i 0 * fccM i 0 - fccS i 1 * fccM i 1| ≤ 2 :=
        (abs_sub _ _).trans (by linarith)
      have c3 := mul_le_mul hq c2 (abs_nonneg _) zero_le_one
      have : |(1 / 5 : ℝ)| = 1 / 5 := abs_of_pos (by norm_num)
      rw [this]; linarith
    rw [abs_mul]
    exact mul_le_one₀ ha (abs_nonneg _) hs
  show |(voceExample.evalGdot 1 (P.taua 0 i)).gdot| < _
  generalize P.taua 0 i = τ at hτ
  rcases le_or_gt (|τ| / 1) ((1 / 10 ^ 60 : ℝ) ^ voceExample.xm) with h | h
  · rw [(C24_sign voceExample (by norm_num [voceExample]) (by norm_num [voceExample]) 1 τ one_pos).1.2 h]
    norm_num
  · rw [C24_value voceExample 1 τ one_pos h
      (by simp only [voceExample, Real.rpow_one, div_one]; exact hτ.trans (by norm_num))]
    have : |((if 0 < τ then 1 else -1 : ℝ))| = 1 := by split_ifs <;> norm_num
    rw [abs_mul, this]
    simp only [voceExample, div_one, Real.rpow_one, one_mul, abs_abs]
    exact hτ.trans_lt (by norm_num)

/-- hypotheses: the example step, from a small elastic strain -/
example : exExt.solver.Sound ∧ RefRateAtMost (exMat exEl).kin 1 ∧
    MonotoneBelow (exMat exEl).kin (10 ^ 45 * 1) ∧
    (∀ E, IsDev E → E ≠ 0 → 0 < ddot E (refStress (exMat exEl).el E)) ∧
    0 < (exInp exEl smallE).dt ∧ IsDev (devOfSvecP (exInp exEl smallE).d) ∧
    ∃ m', getResponseSngl exExt (exMat exEl) (exInp exEl smallE) (exMem smallE none) = .ok m' ∧
      ∀ i, |(histOf m').gdot i| < 10 ^ 45 * 1 := by
  refine ⟨probe_sound 8, C69_voce voceExample _ (by norm_num [voceExample]),
    C70_voce voceExample (by norm_num [voceExample]) (by norm_num [voceExample]) _, ?_,
    by norm_num [exInp], ?_, ?_⟩
  · exact (C47_positive_definite _).2 (((C47_stability_constants 3 1 0 0 1 0).1).2 (by norm_num))
  · have : ∀ A : T3, IsDev (devOfSvecP (svecP (sym A))) := by
      intro A
      rw [isDev_iff]
      simp [devOfSvecP, svecP, sym, dev, Matrix.trace_fin_three]
      ring
    exact this _
  · have hg : (exMat exEl).el.getGmod = .ok exEl.kGmod := by
      show exEl.getGmod = _
      unfold Elast.getGmod
      rw [if_neg (not_le.2 exEl_pos)]
    have hok : ∃ m', getResponseSngl exExt (exMat exEl) (exInp exEl smallE) (exMem smallE none) = .ok m'
        ∧ m'.hist = (Step.newHist exExt (exInp exEl smallE) (Hist.ofArray (exMem smallE none).hist)
          (fun _ => 1) (exProb exEl smallE (symmToVecd (dev (sym (exL exEl smallE))))
            (axial (exL exEl smallE)))
          { converged := true, x := 0, xLast := 0, nFEvals := 1 } false).toArray := by
      unfold getResponseSngl
      rw [ex_setup]
      simp only [Step.run, ex_solve, hg]
      exact ⟨_, rfl, rfl⟩
    obtain ⟨m', h1, h2⟩ := hok
    refine ⟨m', h1, fun i => ?_⟩
    unfold histOf
    rw [h2, Hist.ofArray_toArray]
    exact small_gdot i _ _

end Ecm.Props
