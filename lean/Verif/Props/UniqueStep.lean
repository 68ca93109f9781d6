/- Property theorems C79: the result of a step is determined by its equations: elastic strain, lattice orientation
   and slip rates, however steeply the slip rates rise with the stress
   (src/ecmech/ECMech_evptn.h, computeRJ and getResponseSngl). -/
import Verif.Lemmas.UniqueStep
import Verif.Props.Solvable
import Verif.Props.KMLaw

namespace Ecm.Props
open Ecm Spec Matrix

variable {n nH : ℕ}

/-- Slip of these systems is controlled by the strain rate it makes: slip rates that have the signs of the resolved
    shear stresses of one stress (and vanish where these do) sum to at most `K` times the strain rate. -/
def SlipControl (m s : Fin n → V3) (K : ℝ) : Prop :=
  ∀ (γ : Fin n → ℝ) (T : T3), T.IsSymm →
    (∀ i, 0 ≤ γ i * dot (s i) (T.mulVec (m i)) ∧ (dot (s i) (T.mulVec (m i)) = 0 → γ i = 0)) →
      ∑ i, |γ i| ≤ K * frob (sym (slipGrad γ s m))

theorem isDev_slip {m s : Fin n → V3} (ho : ∀ i, dot (m i) (s i) = 0) (γ : Fin n → ℝ) :
    IsDev (sym (slipGrad γ s m)) := by
  have hs : ∀ a b, slipGrad γ s m a b = ∑ i, γ i * (s i a * m i b) := by
    intro a b; simp [slipGrad, Matrix.sum_apply, dyad]
  rw [isDev_iff]
  refine ⟨by simp [sym]; ring, by simp [sym]; ring, by simp [sym]; ring, ?_⟩
  have h : slipGrad γ s m 0 0 + slipGrad γ s m 1 1 + slipGrad γ s m 2 2 = 0 := by
    rw [hs, hs, hs, ← Finset.sum_add_distrib, ← Finset.sum_add_distrib]
    refine Finset.sum_eq_zero fun i _ => ?_
    have := ho i
    simp only [dot, Fin.sum_univ_three] at this
    linear_combination γ i * this
  simp [sym]
  linarith

theorem slipControl_iff {m s : Fin n → V3} (ho : ∀ i, dot (m i) (s i) = 0) (K : ℝ) :
    SlipControl m s K ↔ SlipBound (slipPQ m s).P K := by
  have hn : ∀ γ, frob (sym (slipGrad γ s m)) = vecNorm (vecsVMa (slipPQ m s).P γ) := fun γ => by
    rw [C18_plastic_rate, frob_vecd (isDev_slip ho γ)]; rfl
  constructor
  · intro h γ y hg
    rw [← hn]
    refine h γ (vecdToSymm y) (vecdToSymm_isDev y).1 fun i => ?_
    have := hg i
    rwa [← symmToVecd_vecdToSymm y, C18_resolved_shear m s _ (vecdToSymm_isDev y).1 i (ho i)] at this
  · intro h γ T hT hg
    rw [hn]
    refine h γ (symmToVecd T) fun i => ?_
    rw [C18_resolved_shear m s _ hT i (ho i)]
    exact hg i

/-- **C79, geometry.** Whatever the slip systems, such a constant exists: slip that follows one stress cannot cancel
    in the strain rate. -/
theorem C79_geometry (m s : Fin n → V3) (ho : ∀ i, dot (m i) (s i) = 0) : ∃ K, 0 < K ∧ SlipControl m s K := by
  obtain ⟨K, h0, h⟩ := exists_slipBound (slipPQ m s).P
  exact ⟨K, h0, (slipControl_iff ho K).2 h⟩

/-- At temperature `T` and hardening state `h` the kinetics report a positive reference rate of at most `A`, and the
    slip rates below `B` rise with the stress up to an error `ε`. -/
def TameAt (K : Kin n nH) (T : ℝ) (h : Vec nH) (A B ε : ℝ) : Prop :=
  ∀ p v sc, K.getVals p T h = .ok (v, sc) → (0 < K.fixedRefRate v ∧ K.fixedRefRate v ≤ A) ∧
    ∀ i τ₁ τ₂, |(K.evalGdot v i τ₁).gdot| < B → |(K.evalGdot v i τ₂).gdot| < B → τ₁ ≤ τ₂ →
      (K.evalGdot v i τ₁).gdot ≤ (K.evalGdot v i τ₂).gdot + ε

/-- C79 the power-law kinetics. -/
theorem C79_voce (k : Voce) (hm : 0 < k.xm) (hw : 0 < k.gamW) (S : Solver 1) (T : ℝ) (h : Vec 1) :
    TameAt (k.kin S n) T h k.gamW (10 ^ 45 * k.gamW) 0 := by
  intro p v sc hv
  refine ⟨⟨hw, le_rfl⟩, fun i τ₁ τ₂ h1 h2 h12 => ?_⟩
  rw [add_zero]
  exact C70_voce k hm hw S p T h v sc hv i τ₁ τ₂ h1 h2 h12

/-- C79 the dislocation kinetics at positive temperature, for rates of any size. -/
theorem C79_kmbald {nV : ℕ} [NeZero nV] (k : KMBalD nV) (S : Solver 1) (T : ℝ) (hT : 0 < T)
    (hw : 0 < k.gamWo) (hr : 0 < k.gamRo) (hD : 0 < k.wrD) (hp : 0 < k.p) (hq : 0 < k.q)
    (hc : ∀ j, 0 ≤ k.c1 j * k.muRef) (hn : ∀ j, 0 ≤ k.xnn j) (h : Vec 1) (B : ℝ) :
    TameAt (k.kin S n) T h (k.gamWo / Real.sqrt (h 0) + k.gamRo * h 0) B (1 / 10 ^ 8 * B) := by
  intro p v sc hv
  simp only [KMBalD.kin, KMBalD.getVals] at hv
  split_ifs at hv with h1 h2 h3 h4
  cases hv
  have h0 : 0 < h 0 := not_le.1 h1
  have hs : 0 < Real.sqrt (h 0) := Real.sqrt_pos.2 h0
  have hss : k.gamRo * Real.sqrt (h 0) * Real.sqrt (h 0) = k.gamRo * h 0 := by
    rw [mul_assoc, Real.mul_self_sqrt h0.le]
  refine ⟨⟨?_, ?_⟩, ?_⟩
  · show 0 < k.gamWo / Real.sqrt (h 0) + k.gamRo * Real.sqrt (h 0) * Real.sqrt (h 0)
    positivity
  · show k.gamWo / Real.sqrt (h 0) + k.gamRo * Real.sqrt (h 0) * Real.sqrt (h 0) ≤ _
    rw [hss]
  · intro i τ₁ τ₂ b1 b2 h12
    have hadm : KMAdm k { gamW := k.gamWo / Real.sqrt (h 0)
                          gamR := k.gamRo * Real.sqrt (h 0) * Real.sqrt (h 0)
                          g := fun i => k.go i + k.s i * Real.sqrt (h 0)
                          ct := fun i => k.c1 i / T } (k.iVal i) := by
      refine ⟨div_pos hw hs, by positivity, hD, ?_, hp, hq, ?_⟩
      · have := hc (k.iVal i)
        show 0 ≤ k.c1 (k.iVal i) / T * k.muRef
        rw [div_mul_eq_mul_div]; positivity
      · split_ifs with hg
        · exact not_le.1 fun h => h4 ⟨hg, h⟩
        · have hg' : k.withGA = false := by simpa using hg
          exact not_le.1 fun h => h3 ⟨hg', _, h⟩
    have m1 := C65_monotone k _ i hadm (hn _) τ₁ τ₂
    have m2 := C65_monotone k _ i hadm (hn _) τ₂ τ₁
    have s1 := (C28_sign k _ i hadm τ₁).1
    have s2 := (C28_sign k _ i hadm τ₂).1
    simp only [KMBalD.kin] at b1 b2 ⊢
    rcases h12.eq_or_lt with rfl | hlt
    · have : 0 ≤ B := (abs_nonneg _).trans b1.le
      linarith
    generalize (k.evalGdot _ i τ₁).gdot = g1 at *
    generalize (k.evalGdot _ i τ₂).gdot = g2 at *
    have a1 := le_abs_self g1
    have a2 := neg_abs_le g2
    rcases lt_trichotomy 0 τ₂ with p2 | p2 | p2
    · have hg2 : 0 ≤ g2 := nonneg_of_mul_nonneg_right s2 p2
      rcases le_or_gt 0 τ₁ with p1 | p1
      · have := m1 (by rwa [abs_of_nonneg p1, abs_of_pos p2])
        rw [abs_of_nonneg hg2] at this b2
        linarith
      · have hg1 : g1 ≤ 0 := by
          by_contra hh
          push Not at hh
          nlinarith
        have : 0 ≤ B := (abs_nonneg _).trans b1.le
        linarith
    all_goals
      have p1 : τ₁ < 0 := by linarith
      have hg1 : g1 ≤ 0 := by
        by_contra hh
        push Not at hh
        nlinarith
      have := m2 (by rw [abs_of_nonpos (by linarith), abs_of_neg p1]; linarith)
      rw [abs_of_nonpos hg1] at this b1
      linarith

/-- what the solver's tolerance allows in the equations of a step, as a strain rate -/
noncomputable def tolRate (tol A D dt : ℝ) : ℝ := tol * (A + D + 1 / 10 ^ 6 / dt)

/-- how far the rotations of two accepted points of a step of length `dt` can differ -/
noncomputable def rotGap (dt b θ e : ℝ) : ℝ := 8 / 10 ^ 90 + 2 * dt * (4 * θ + b * (2 * θ + e) + e)

/-- how far the rates seen from the lattice can differ -/
noncomputable def rateGap (D δ θ e : ℝ) : ℝ := 3 * D * (δ + 8 / 10 ^ 90) + 2 * θ + e

/-- how strongly rotation reacts to the rate: `K` for the slip, the rest for the stored elastic strain -/
noncomputable def spinGain (K r eN a : ℝ) : ℝ := K * (1 + Real.sqrt r) / 2 + Real.sqrt r * eN / a

theorem le_kDiag {el : Elast} {κ : ℝ} (hκ : ∀ E, IsDev E → κ * ddot E E ≤ ddot E (refStress el E))
    (k : Fin 5) : κ ≤ el.kDiag k := by
  have h := hκ _ (vecdToSymm_isDev (Pi.single k 1))
  have e1 : ∀ v : Vec 5, ddot (vecdToSymm v) (refStress el (vecdToSymm v))
      = ∑ k, el.kDiag k * v k ^ 2 := by
    intro v
    cases el <;>
      simp only [ddot, Fin.sum_univ_three, Fin.sum_univ_five, refStress, cubicStress, hexagStress,
        Elast.kDiag, vecdToSymm, ofSvecP, vecdsToSvecP, Matrix.of_apply, Matrix.cons_val] <;> sqr_ring
  have e2 : ∀ v : Vec 5, ddot (vecdToSymm v) (vecdToSymm v) = ∑ k, v k ^ 2 := by
    intro v
    simp only [ddot, Fin.sum_univ_three, Fin.sum_univ_five, vecdToSymm, ofSvecP, vecdsToSvecP,
      Matrix.of_apply, Matrix.cons_val]
    sqr_ring
  rw [e1, e2] at h
  fin_cases k <;> simpa [Fin.sum_univ_five, Pi.single_apply] using h

/-- **C79.** Two updates from the same memory with the same inputs, made with different solvers (or starting points,
    or numbers of iterations).  If the step is short on the scale of the imposed rate and spin, then hardening
    states are the same, and lattice orientations, elastic strains and slip rates agree up to what the tolerance
    allows.  The bound on the step does not depend on the slip law: it may be as steep as it likes. -/
theorem C79_step (X Y : Ext) (hX : X.solver.Sound) (hY : Y.solver.Sound) (M : Material n nH)
    (mS sS : Fin n → V3) (hgeom : M.geom = slipPQ mS sS) (hsys : ∀ i, IsSlipSystem (mS i) (sS i))
    (K : ℝ) (hK : 0 ≤ K) (hSC : SlipControl mS sS K) (κ₀ κ : ℝ) (hκ₀ : 0 < κ₀)
    (h0 : ∀ E, IsDev E → κ₀ * ddot E E ≤ ddot E (refStress M.el E))
    (h1 : ∀ E, IsDev E → ddot E (refStress M.el E) ≤ κ * ddot E E)
    (inp : Inputs) (hdt : 0 < inp.dt) (hd : IsDev (devOfSvecP inp.d)) (m m1 m2 : Mem nH n)
    (ok1 : getResponseSngl X M inp m = .ok m1) (ok2 : getResponseSngl Y M inp m = .ok m2)
    (A B ε : ℝ) (hε : 0 ≤ ε) (hlaw : TameAt M.kin m1.tkelv (histOf m1).h A B ε)
    (hB1 : ∀ i, |(histOf m1).gdot i| < B) (hB2 : ∀ i, |(histOf m2).gdot i| < B)
    (b : ℝ) (hb : b = spinGain K (κ / κ₀) (len (histOf m).e) ((inp.vr 1) ^ (1 / 3 : ℝ)))
    (hsmall : inp.dt * (3 / 2 * len inp.w + 3 * b * frob (devOfSvecP inp.d)) ≤ 1 / 2)
    (θ δ φ : ℝ) (hθ : θ = tolRate inp.tol A (frob (devOfSvecP inp.d)) inp.dt)
    (hδ : δ = rotGap inp.dt b θ (n * ε)) (hφ : φ = rateGap (frob (devOfSvecP inp.d)) δ θ (n * ε)) :
    (histOf m1).h = (histOf m2).h ∧
    frob (quatToTensor (histOf m1).q - quatToTensor (histOf m2).q) ≤ 3 / 2 * δ + 12 / 10 ^ 90 ∧
    frob (vecdToSymm (histOf m1).e - vecdToSymm (histOf m2).e)
      ≤ inp.dt * (inp.vr 1) ^ (1 / 3 : ℝ) * (Real.sqrt (κ / κ₀) * φ) ∧
    ∑ i, |(histOf m1).gdot i - (histOf m2).gdot i| ≤ K * ((1 + Real.sqrt (κ / κ₀)) * φ) + n * ε := by
  obtain ⟨s⟩ := getResponseSngl_ok ok1
  obtain ⟨t⟩ := getResponseSngl_ok ok2
  obtain ⟨hPP, hUU⟩ := setup_same s t
  have res : ∀ (Z : Ext) (hZ : Z.solver.Sound) (m' : Mem nH n) (u : OkStep Z M inp m m'),
      (histOf m').e = u.P.eF (Step.solve Z inp u.P).x ∧
      (histOf m').gdot = u.P.gdot (Step.solve Z inp u.P).x ∧
      quatToTensor (histOf m').q = u.P.cMatx (Step.solve Z inp u.P).x ∧
      vecNorm (u.P.resid (Step.solve Z inp u.P).x) ≤ inp.tol := by
    intro Z hZ m' u
    have hlast : Step.lastX (Step.solve Z inp u.P) m.mtan.isSome = (Step.solve Z inp u.P).x := by
      unfold Step.lastX
      split_ifs
      · rfl
      · exact (hZ _ _ _ _ u.hc).2
    refine ⟨by rw [OkStep.hist_eq u]; rfl, ?_, ?_, ?_⟩
    · rw [OkStep.hist_eq u, ← hlast]; rfl
    · rw [OkStep.hist_eq u]; exact quatToTensor_flip _ _
    · obtain ⟨⟨r, J, hr, hrt⟩, -⟩ := hZ _ _ _ _ u.hc
      have : some (u.P.resid (Step.solve Z inp u.P).x, _) = some (r, J) := hr
      rwa [← (Prod.mk.inj (Option.some.inj this)).1] at hrt
  have hh1 : (histOf m1).h = s.hU := by rw [OkStep.hist_eq s]; rfl
  have hh2 : (histOf m2).h = t.hU := by rw [OkStep.hist_eq t]; rfl
  obtain ⟨e1, g1, q1, r1⟩ := res X hX m1 s
  obtain ⟨e2, g2, q2, r2⟩ := res Y hY m2 t
  rw [← hPP] at e2 g2 q2 r2
  generalize (Step.solve X inp s.P).x = x at e1 g1 q1 r1
  generalize (Step.solve Y inp s.P).x = y at e2 g2 q2 r2
  have hPel : s.P.el = M.el := by rw [s.hP]
  have hPdt : s.P.dt = inp.dt := by rw [s.hP]
  have hPv : s.P.detV = inp.vr 1 := by rw [s.hP]
  have hPd : s.P.dSm = svecToVecd inp.d := by rw [s.hP]
  have hPw : s.P.wSm = inp.w := by rw [s.hP]
  have hPe : s.P.eN = (histOf m).e := by rw [s.hP]
  have hPg : s.P.geom = slipPQ mS sS := by rw [s.hP]; exact hgeom
  have hPa : s.P.adotsRef = M.kin.fixedRefRate s.v := by rw [s.hP]
  have hgd : s.P.gd = M.kin.evalGdot s.v := by rw [s.hP]
  have hcn : qn s.P.cN = 1 := by rw [s.hP]; exact qn_quatN s.hq
  rw [s.htk, hh1] at hlaw
  obtain ⟨⟨ha0, ha1⟩, hmono⟩ := hlaw _ _ _ s.hV
  rw [← hPa] at ha0 ha1
  have hdD : frob (devOfSvecP inp.d) = vecNorm s.P.dSm := by rw [hPd]; exact frob_eq hd
  have htol : 0 ≤ inp.tol := (vecNorm_nonneg _).trans r1
  have hcol := fun i => slip_columns hsys i
  rw [hdD] at hsmall hθ hφ
  have key := s.P.agree (x := x) (y := y) (tol := inp.tol) hκ₀ (by rw [hPel]; exact le_kDiag h0)
    (by rw [hPel]; exact kDiag_le h1)
    (hPdt ▸ hdt) (hPv ▸ s.hv) hcn (by rw [hPg]; exact (slipControl_iff (fun i => (hsys i).2.2) K).1 hSC) hK
    (by rw [hPg]; exact fun i => (hcol i).1) (by rw [hPg]; exact fun i => (hcol i).2) hε ha0
    (θ := θ) (by
      rw [hθ, tolRate, hPdt]
      exact mul_le_mul_of_nonneg_left (by linarith) htol)
    r1 r2
    (fun i hle => by
      have b1 := hB1 i; have b2 := hB2 i
      rw [g1] at b1; rw [g2] at b2
      simp only [Updst.gdot, hgd] at b1 b2 ⊢
      exact hmono i _ _ b1 b2 hle)
    (fun i hle => by
      have b1 := hB1 i; have b2 := hB2 i
      rw [g1] at b1; rw [g2] at b2
      simp only [Updst.gdot, hgd] at b1 b2 ⊢
      exact hmono i _ _ b2 b1 hle)
    b (by rw [hb, hPe, spinGain, Updst.aV, hPv]; rfl)
    (by rw [hPdt, hPw]; exact hsmall) δ φ
    (by rw [hδ, rotGap, hPdt]) (by rw [hφ, rateGap])
  obtain ⟨k1, k2, k3⟩ := key
  refine ⟨by rw [hh1, hh2, hUU], ?_, ?_, ?_⟩
  · rw [q1, q2]
    exact (s.P.cMatx_lip hcn x y).trans (by linarith)
  · rw [vecdToSymm_sub, frob_vecd (vecdToSymm_isDev _), symmToVecd_vecdToSymm, e1, e2, ← hPdt, ← hPv]
    exact k2
  · rw [g1, g2]
    exact k3

/-- **C79, exact equations.** For slip laws that are continuous, rise with the stress and vanish at zero stress, the
    balance equations of one backward Euler step, with the exact exponential map, have exactly one solution if the
    step is short on the scale of the imposed rate and spin.  How short does not depend on the slip laws. -/
theorem C79_balance (P : Updst n) (m s : Fin n → V3) (hgeom : P.geom = slipPQ m s)
    (hsys : ∀ i, IsSlipSystem (m i) (s i)) (K : ℝ) (hK : 0 ≤ K) (hSC : SlipControl m s K)
    (hcn : dot P.cN P.cN = 1) (hdt : 0 < P.dt) (hv : 0 < P.detV) (κ₀ κ : ℝ) (hκ₀ : 0 < κ₀)
    (hst : ∀ E, IsDev E → κ₀ * ddot E E ≤ ddot E (refStress P.el E))
    (hst' : ∀ E, IsDev E → ddot E (refStress P.el E) ≤ κ * ddot E E)
    (hc : ∀ i, Continuous fun τ => (P.gd i τ).gdot) (hm : ∀ i, Monotone fun τ => (P.gd i τ).gdot)
    (h0 : ∀ i, (P.gd i 0).gdot = 0)
    (a : ℝ) (ha0 : 0 < a) (ha3 : a ^ 3 = P.detV) (D E0 : T3)
    (hD : IsDev D) (hE0 : IsDev E0) (dD : symmToVecd D = P.dSm) (dE0 : symmToVecd E0 = P.eN)
    (hsmall : P.dt * (3 / 2 * len P.wSm + 3 * spinGain K (κ / κ₀) (frob E0) a * frob D) ≤ 1 / 2) :
    ∃! x : Vec 8, Balance a P.dt D P.wSm (quatToTensor P.cN * quatToTensor (expQuat (Updst.xiF x)))
      (vecdToSymm (P.eF x)) ((1 / P.dt) • (vecdToSymm (P.eF x) - E0))
      (slipGrad (fun i => (P.gd i (P.taua x i)).gdot) s m) (Updst.xiF x) := by
  have hpos : ∀ E, IsDev E → E ≠ 0 → 0 < ddot E (refStress P.el E) := by
    intro E hE hne
    refine lt_of_lt_of_le (mul_pos hκ₀ ?_) (hst E hE)
    rcases (show 0 ≤ ddot E E by
      unfold ddot
      exact Finset.sum_nonneg fun i _ => Finset.sum_nonneg fun j _ => mul_self_nonneg _).eq_or_lt with h | h
    · refine absurd ?_ hne
      have h' : ∑ i, ∑ j, E i j * E i j = 0 := h.symm
      have h2 := (Finset.sum_eq_zero_iff_of_nonneg (f := fun i => ∑ j, E i j * E i j)
        fun i _ => Finset.sum_nonneg fun j _ => mul_self_nonneg _).1 h'
      ext i j
      have h2 := (Finset.sum_eq_zero_iff_of_nonneg (f := fun j => E i j * E i j)
        fun j _ => mul_self_nonneg _).1 (h2 i (Finset.mem_univ i))
      exact mul_self_eq_zero.1 (h2 j (Finset.mem_univ j))
    · exact h
  obtain ⟨x, E, hE, hEx, hbal⟩ := C72_balance P m s hgeom hcn hdt hv hpos hc hm h0 a ha0 ha3 D E0 hD hE0 dD dE0
  have hE' : E = vecdToSymm (P.eF x) := by rw [← hEx, vecdToSymm_symmToVecd E hE]
  subst hE'
  refine ⟨x, hbal, fun y hy => ?_⟩
  have haV : P.aV = a := by
    have h1 := P.aV_cube hv
    have h2 := P.aV_pos hv
    exact (pow_left_inj₀ h2.le ha0.le (by norm_num : (3 : ℕ) ≠ 0)).1 (h1.trans ha3.symm)
  rw [dot_self_quat] at hcn
  have q2 : ∀ z : Vec 8, qn (quatProd P.cN (expQuat (Updst.xiF z))) = 1 := fun z => by
    rw [qn_prod, hcn, qn_expQuat, one_mul]
  -- the equations in components
  have form : ∀ z : Vec 8, Balance a P.dt D P.wSm (quatToTensor P.cN * quatToTensor (expQuat (Updst.xiF z)))
      (vecdToSymm (P.eF z)) ((1 / P.dt) • (vecdToSymm (P.eF z) - E0))
      (slipGrad (fun i => (P.gd i (P.taua z i)).gdot) s m) (Updst.xiF z) →
      P.eF z = P.eN + (P.dt * P.aV) •
        (vecsVMTa (getRotMatVecd (quatToTensor (quatProd P.cN (expQuat (Updst.xiF z))))) P.dSm
          - vecsVMa P.geom.P (P.gdot z)) ∧
      Updst.xiF z = P.dt • (vecsVMTa (quatToTensor (quatProd P.cN (expQuat (Updst.xiF z)))) P.wSm
        - vecsVMa P.geom.Q (P.gdot z) + P.eeFac • vecsVMa (m35 (P.eF z)) (P.edot z)) := by
    intro z hz
    obtain ⟨h1, h2⟩ := hz
    have hmul : quatToTensor P.cN * quatToTensor (expQuat (Updst.xiF z))
        = quatToTensor (quatProd P.cN (expQuat (Updst.xiF z))) := (quatToTensor_prod _ _).symm
    rw [hmul] at h1 h2
    have hsg : (fun i => (P.gd i (P.taua z i)).gdot) = P.gdot z := rfl
    rw [hsg] at h1 h2
    have dE : symmToVecd (vecdToSymm (P.eF z)) = P.eF z := symmToVecd_vecdToSymm _
    have hEd := vecdToSymm_isDev (P.eF z)
    generalize vecdToSymm (P.eF z) = E at dE hEd h1 h2
    have e3 : P.edot z = symmToVecd ((1 / P.dt) • (E - E0)) := by
      rw [symmToVecd_smul, P.edot_eq, ← dE, ← dE0, Ecm.Props.symmToVecd_sub]
    have e2 : vecsVMa P.geom.P (P.gdot z) = symmToVecd (sym (slipGrad (P.gdot z) s m)) := by
      rw [hgeom, C18_plastic_rate]; rfl
    have e2' : vecsVMa P.geom.Q (P.gdot z) = axial (slipGrad (P.gdot z) s m) := by
      rw [hgeom, C18_plastic_spin]; rfl
    constructor
    · have h3 := congrArg symmToVecd h1
      rw [symmToVecd_add, symmToVecd_smul, symmToVecd_dev, ← e2, ← vecsVMTa_rot (q2 z) hD, dD, ← e3, P.edot_eq,
        ← haV] at h3
      rw [← h3]
      have := (P.aV_pos hv).ne'
      funext i
      simp only [Pi.add_apply, Pi.smul_apply, Pi.sub_apply, smul_eq_mul]
      field_simp
      ring
    · have e4 : vecsVMa (m35 (P.eF z)) (P.edot z)
          = axial (((1 / P.dt) • (E - E0)) * E - E * ((1 / P.dt) • (E - E0))) := by
        rw [e3, ← dE]
        exact (C08_commutator _ _ (isDev_smul _ (isDev_sub hEd hE0)).1 hEd.1).1
      have hee : P.eeFac = 1 / (2 * a ^ 2) := by
        unfold Updst.eeFac Updst.aVri
        rw [haV, one_div_mul_one_div, one_div_mul_one_div]
        congr 1; ring
      rw [e2', e4, hee, vecsVMTa_eq]
      exact h2
  obtain ⟨ex, sx⟩ := form x hbal
  obtain ⟨ey, sy⟩ := form y hy
  have hlip : ∀ z w : Vec 8, frob (quatToTensor (quatProd P.cN (expQuat (Updst.xiF z)))
      - quatToTensor (quatProd P.cN (expQuat (Updst.xiF w)))) ≤ 3 / 2 * vecNorm (Updst.xiF z - Updst.xiF w) := by
    intro z w
    refine (quatToTensor_lip (q2 z) (q2 w)).trans ?_
    rw [quatProd_sub, vecNorm_prod_unit hcn]
    have := expQuat_lip' (Updst.xiF z) (Updst.xiF w)
    linarith
  have hdt' : ∀ i, P.taua y i = P.taua x i → P.gdot y i = P.gdot x i := fun i h => by
    simp only [Updst.gdot, h]
  obtain ⟨g, hg, hge⟩ := exists_follows (d := P.gdot y - P.gdot x) (t := P.taua y - P.taua x) le_rfl (fun i => by
    simp only [Pi.sub_apply]
    refine ⟨fun h => ?_, fun h => ?_, fun h => ?_⟩
    · rw [hdt' i (by linarith), sub_self]
    · have := hm i (show P.taua x i ≤ P.taua y i by linarith)
      simp only [Updst.gdot]; linarith
    · have := hm i (show P.taua y i ≤ P.taua x i by linarith)
      simp only [Updst.gdot]; linarith)
  simp only [Pi.sub_apply] at hge
  have hdD : frob D = vecNorm P.dSm := by rw [frob_vecd hD, dD]
  have hdE : frob E0 = vecNorm P.eN := by rw [frob_vecd hE0, dE0]
  rw [hdD, hdE] at hsmall
  have hF : vecNorm (vecsVMTa (getRotMatVecd (quatToTensor (quatProd P.cN (expQuat (Updst.xiF y))))) P.dSm
      - vecsVMTa (getRotMatVecd (quatToTensor (quatProd P.cN (expQuat (Updst.xiF x))))) P.dSm)
      ≤ 3 * vecNorm P.dSm * (vecNorm (Updst.xiF y - Updst.xiF x) + 0) + 0 := by
    have h1 := rot_dev_lip (q2 y) (q2 x) P.dSm
    have h2 := mul_le_mul_of_nonneg_right (hlip y x) (vecNorm_nonneg P.dSm)
    linarith
  have hW : vecNorm (vecsVMTa (quatToTensor (quatProd P.cN (expQuat (Updst.xiF y)))) P.wSm
      - vecsVMTa (quatToTensor (quatProd P.cN (expQuat (Updst.xiF x)))) P.wSm)
      ≤ 3 / 2 * vecNorm P.wSm * (vecNorm (Updst.xiF y - Updst.xiF x) + 0) + 0 := by
    have h1 := rot_vec_lip (quatToTensor (quatProd P.cN (expQuat (Updst.xiF y))))
      (quatToTensor (quatProd P.cN (expQuat (Updst.xiF x)))) P.wSm
    have h2 := mul_le_mul_of_nonneg_right (hlip y x) (vecNorm_nonneg P.wSm)
    linarith
  have hcol := fun i => slip_columns hsys i
  have hk0 := le_kDiag hst
  have hk1 := kDiag_le hst'
  have hSB : SlipBound P.geom.P K := by rw [hgeom]; exact (slipControl_iff (fun i => (hsys i).2.2) K).1 hSC
  have hP1 : ∀ i, vecNorm (fun k => P.geom.P k i) ≤ 1 := by rw [hgeom]; exact fun i => (hcol i).1
  have hQ1 : ∀ i, vecNorm (fun k => P.geom.Q k i) ≤ 1 / 2 := by rw [hgeom]; exact fun i => (hcol i).2
  have hb := P.pair_bound hκ₀ hk0 hk1 hdt hv hSB hK hP1 hQ1 ey ex hg hge sy sx hF hW le_rfl
    (spinGain K (κ / κ₀) (vecNorm P.eN) a) (by rw [haV]; rfl) hsmall
  have hξ0 : vecNorm (Updst.xiF y - Updst.xiF x) = 0 := le_antisymm (hb.trans (by simp)) (vecNorm_nonneg _)
  have hξ : Updst.xiF y = Updst.xiF x := sub_eq_zero.1 (vecNorm_eq_zero hξ0)
  have hu := (P.pair_strain hκ₀ hk0 hk1 hdt hv hSB hK hP1 ey ex hg hge).1
  rw [hξ, sub_self, vecNorm_zero, mul_zero, add_zero, mul_zero, mul_zero] at hu
  have he : P.eF y = P.eF x := sub_eq_zero.1 (vecNorm_eq_zero (le_antisymm hu (vecNorm_nonneg _)))
  funext i
  by_cases hi : i.val < 5
  · have h1 := congrFun he ⟨i.val, hi⟩
    simp only [Updst.eF, vecsVapb, vecsVxa, iE, Fin.eta] at h1
    have h2 : (0 : ℝ) < eScale := by norm_num [eScale]
    exact mul_left_cancel₀ h2.ne' (by linarith)
  · have h1 := congrFun hξ ⟨i.val - 5, by omega⟩
    have hi5 : (⟨5 + (i.val - 5), by omega⟩ : Fin 8) = i := by ext; simp; omega
    simp only [Updst.xiF, vecsVxa, iR, hi5] at h1
    have h2 : (0 : ℝ) < rScale := by norm_num [rScale]
    exact mul_left_cancel₀ h2.ne' h1

theorem exEl_ddot (E : T3) (hE : IsDev E) : ddot E (refStress exEl E) = 2 * ddot E E := by
  have e := vecdToSymm_symmToVecd E hE
  rw [← e]
  generalize symmToVecd E = v
  simp only [ddot, Fin.sum_univ_three, refStress, exEl, cubicStress, vecdToSymm, ofSvecP,
    vecdsToSvecP, Matrix.of_apply, Matrix.cons_val]
  sqr_ring

/-- hypotheses of the exact statement: the crystal with a linear law in general position, with a short step -/
example : ∃ t : ℝ, 0 < t ∧ ∃! x : Vec 8,
    Balance 2 t (vecdToSymm ![1, 2, 0, 0, 1]) ![0, 1, 2]
      (quatToTensor probEx.cN * quatToTensor (expQuat (Updst.xiF x))) (vecdToSymm ({probEx with dt := t}.eF x))
      ((1 / t) • (vecdToSymm ({probEx with dt := t}.eF x) - vecdToSymm ![1, 0, 2, 0, 0]))
      (slipGrad (fun i => {probEx with dt := t}.taua x i) fccS fccM) (Updst.xiF x) := by
  obtain ⟨K, hK0, hK⟩ := C79_geometry fccM fccS fun i => (fcc_slip i).2.2
  set C := 3 / 2 * len (![0, 1, 2] : Vec 3)
    + 3 * spinGain K (2 / 2) (frob (vecdToSymm ![1, 0, 2, 0, 0])) 2 * frob (vecdToSymm ![1, 2, 0, 0, 1]) with hC
  have hC0 : 0 ≤ C := by
    have h1 : 0 ≤ len (![0, 1, 2] : Vec 3) := Real.sqrt_nonneg _
    have h2 := frob_nonneg (vecdToSymm ![1, 0, 2, 0, 0])
    have h3 := frob_nonneg (vecdToSymm ![1, 2, 0, 0, 1])
    have h4 : 0 ≤ spinGain K (2 / 2) (frob (vecdToSymm ![1, 0, 2, 0, 0])) 2 := by unfold spinGain; positivity
    positivity
  have ht : 0 < 1 / (2 * (C + 1)) := by positivity
  refine ⟨1 / (2 * (C + 1)), ht, ?_⟩
  refine C79_balance {probEx with dt := 1 / (2 * (C + 1))} fccM fccS rfl fcc_slip K hK0.le hK probEx_unit ht
    (by norm_num [probEx]) 2 2 two_pos (fun E hE => (exEl_ddot E hE).ge) (fun E hE => (exEl_ddot E hE).le)
    (fun _ => continuous_id) (fun _ => monotone_id) (fun _ => rfl) 2 (by norm_num) (by norm_num [probEx])
    _ _ (vecdToSymm_isDev _) (vecdToSymm_isDev _) (symmToVecd_vecdToSymm _) (symmToVecd_vecdToSymm _) ?_
  show 1 / (2 * (C + 1)) * C ≤ 1 / 2
  rw [div_mul_eq_mul_div, one_mul, div_le_div_iff₀ (by positivity) (by norm_num)]
  linarith

/-- slip rates of the example at an elastic strain of size `η` -/
theorem slight_gdot (η : ℝ) (h0 : 0 ≤ η) (i : Fin 12) (d : Vec 5) (w : Vec 3) :
    |(exProb exEl ![η, 0, 0, 0, 0] d w).gdot 0 i| ≤ 4 * η := by
  set P := exProb exEl ![η, 0, 0, 0, 0] d w with hP
  have h1 := (fcc_slip i).1
  have h2 := (fcc_slip i).2.1
  have hbd : ∀ u : Vec 3, dot u u = 1 → ∀ j, |u j| ≤ 1 := by
    intro u hu j
    rw [← sq_le_one_iff_abs_le_one]
    simp only [dot, Fin.sum_univ_three] at hu
    have hj : j = 0 ∨ j = 1 ∨ j = 2 := by fin_cases j <;> simp
    rcases hj with rfl | rfl | rfl <;> nlinarith [sq_nonneg (u 0), sq_nonneg (u 1), sq_nonneg (u 2)]
  have hτ : |P.taua 0 i| ≤ 4 * η := by
    have he : P.eF 0 = ![η, 0, 0, 0, 0] := by
      ext k; simp [Updst.eF, hP, exProb, vecsVapb, vecsVxa]
    rw [P.taua_cubic (c11 := 3) (c12 := 1) (c44 := 1) rfl, he]
    have ha : |P.aVri| ≤ 1 := by
      have : 1 ≤ P.aV := by
        show (1 : ℝ) ≤ (2 : ℝ) ^ (1 / 3 : ℝ)
        exact Real.one_le_rpow (by norm_num) (by norm_num)
      unfold Updst.aVri
      rw [abs_of_pos (by positivity), div_le_one (by linarith)]; exact this
    have hs : |∑ k, P.el.kDiag k * (![η, 0, 0, 0, 0] : Vec 5) k * P.geom.P k i| ≤ 4 * η := by
      have e : ∑ k, P.el.kDiag k * (![η, 0, 0, 0, 0] : Vec 5) k * P.geom.P k i
          = 2 * η * (sqr2i * (fccS i 0 * fccM i 0 - fccS i 1 * fccM i 1)) := by
        simp [Fin.sum_univ_five, hP, exProb, exEl, Elast.kDiag, slipPQ, matToP, vecsMaTb, symmToVecd,
          vecsMsymm]
        ring
      rw [e]
      have a0 := hbd _ h1 0; have a1 := hbd _ h1 1
      have b0 := hbd _ h2 0; have b1 := hbd _ h2 1
      have hq : |sqr2i| ≤ 1 := by
        rw [← sq_le_one_iff_abs_le_one, sq, sqr2i_sq]; norm_num
      rw [abs_mul, abs_mul sqr2i, abs_of_nonneg (by positivity : 0 ≤ 2 * η)]
      have c0 : |fccS i 0 * fccM i 0| ≤ 1 := by
        rw [abs_mul]; exact mul_le_one₀ b0 (abs_nonneg _) a0
      have c1 : |fccS i 1 * fccM i 1| ≤ 1 := by
        rw [abs_mul]; exact mul_le_one₀ b1 (abs_nonneg _) a1
      have c2 : |fccS i 0 * fccM i 0 - fccS i 1 * fccM i 1| ≤ 2 :=
        (abs_sub _ _).trans (by linarith)
      have c3 := mul_le_mul hq c2 (abs_nonneg _) zero_le_one
      have := mul_le_mul_of_nonneg_left c3 (by positivity : 0 ≤ 2 * η)
      linarith
    rw [abs_mul]
    have := mul_le_mul ha hs (abs_nonneg _) zero_le_one
    linarith
  show |(voceExample.evalGdot 1 (P.taua 0 i)).gdot| ≤ _
  generalize P.taua 0 i = τ at hτ
  rcases le_or_gt (|τ| / 1) ((1 / 10 ^ 60 : ℝ) ^ voceExample.xm) with h | h
  · rw [(C24_sign voceExample (by norm_num [voceExample]) (by norm_num [voceExample]) 1 τ one_pos).1.2 h]
    norm_num
    linarith
  · rcases le_or_gt (|τ| / 1) ((10 ^ 60 : ℝ) ^ voceExample.xm) with h' | h'
    · rw [C24_value voceExample 1 τ one_pos h h']
      have : |((if 0 < τ then 1 else -1 : ℝ))| = 1 := by split_ifs <;> norm_num
      rw [abs_mul, this]
      simp only [voceExample, div_one, Real.rpow_one, one_mul, abs_abs]
      exact hτ
    · rw [C24_overflow voceExample (by norm_num [voceExample]) (by norm_num [voceExample]) 1 τ one_pos h']
      have : |((if 0 < τ then 1 else -1 : ℝ))| = 1 := by split_ifs <;> norm_num
      rw [abs_mul, this]
      simp only [voceExample, div_one, Real.rpow_one, one_mul] at h' ⊢
      norm_num at h' ⊢
      linarith

/-- the rate and spin of the example are small with the elastic strain -/
theorem slight_rate (η : ℝ) (h0 : 0 ≤ η) :
    frob (devOfSvecP (exInp exEl ![η, 0, 0, 0, 0]).d) ≤ 48 * η ∧ len (exInp exEl ![η, 0, 0, 0, 0]).w ≤ 24 * η := by
  set e : Vec 5 := ![η, 0, 0, 0, 0] with he
  have hrot := isRot_of_unit (show qn ![0, 0, 1, 0] = 1 by simp [qn])
  set R := quatToTensor ![0, 0, 1, 0] with hR
  have hsys : ∀ i, IsSlipSystem (R.mulVec (fccM i)) (R.mulVec (fccS i)) := by
    intro i
    have hdot : ∀ u v : Vec 3, dot (R.mulVec u) (R.mulVec v) = dot u v := by
      intro u v
      simp [dot, Fin.sum_univ_three, hR, quatToTensor, Matrix.mulVec, dotProduct]
    obtain ⟨a, b, c⟩ := fcc_slip i
    exact ⟨by rw [hdot, a], by rw [hdot, b], by rw [hdot, c]⟩
  have hcol := fun i => slip_columns hsys i
  set γ : Vec 12 := fun i => (exProb exEl e 0 0).gdot 0 i with hγ
  have hsum : ∑ i, |γ i| ≤ 48 * η := by
    refine (Finset.sum_le_sum fun i _ => slight_gdot η h0 i 0 0).trans (le_of_eq ?_)
    simp
    ring
  have hL : exL exEl e = slipGrad γ (fun i => R.mulVec (fccS i)) (fun i => R.mulVec (fccM i)) := rfl
  constructor
  · have hd : IsDev (devOfSvecP (svecP (sym (exL exEl e)))) := by
      rw [isDev_iff]
      simp [devOfSvecP, svecP, sym, dev, Matrix.trace_fin_three]
      ring
    refine (frob_eq (d := (exInp exEl e).d) hd).trans_le ?_
    show vecNorm (svecToVecd (exInp exEl e).d) ≤ _
    rw [ex_svecToVecd, symmToVecd_dev, hL]
    have := vecNorm_vecsVMa_le _ (fun i => (hcol i).1) γ
    rw [C18_plastic_rate, one_mul] at this
    exact this.trans hsum
  · show vecNorm (axial (exL exEl e)) ≤ _
    rw [hL]
    have := vecNorm_vecsVMa_le _ (fun i => (hcol i).2) γ
    rw [C18_plastic_spin] at this
    exact this.trans (by linarith)

/-- hypotheses: the example step with a non-zero elastic strain, taken twice -/
example : ∃ (K η : ℝ) (m' : Mem 1 12), 0 < K ∧ 0 < η ∧ SlipControl fccM fccS K ∧
    exExt.solver.Sound ∧ (exMat exEl).geom = slipPQ fccM fccS ∧
    (∀ E, IsDev E → 2 * ddot E E ≤ ddot E (refStress (exMat exEl).el E)) ∧
    (∀ E, IsDev E → ddot E (refStress (exMat exEl).el E) ≤ 2 * ddot E E) ∧
    IsDev (devOfSvecP (exInp exEl ![η, 0, 0, 0, 0]).d) ∧
    getResponseSngl exExt (exMat exEl) (exInp exEl ![η, 0, 0, 0, 0]) (exMem ![η, 0, 0, 0, 0] none) = .ok m' ∧
    TameAt (exMat exEl).kin m'.tkelv (histOf m').h 1 (10 ^ 45 * 1) 0 ∧
    (∀ i, |(histOf m').gdot i| < 10 ^ 45 * 1) ∧
    (exInp exEl ![η, 0, 0, 0, 0]).dt * (3 / 2 * len (exInp exEl ![η, 0, 0, 0, 0]).w
      + 3 * spinGain K (2 / 2) (len (histOf (exMem ![η, 0, 0, 0, 0] none)).e)
          (((exInp exEl ![η, 0, 0, 0, 0]).vr 1) ^ (1 / 3 : ℝ)) * frob (devOfSvecP (exInp exEl ![η, 0, 0, 0, 0]).d))
      ≤ 1 / 2 := by
  obtain ⟨K, hK0, hK⟩ := C79_geometry fccM fccS fun i => (fcc_slip i).2.2
  have hη : 0 < 1 / (1000 * (K + 1)) := by positivity
  have hη1 : 1 / (1000 * (K + 1)) ≤ 1 := by rw [div_le_one (by positivity)]; linarith
  have hηK : 1 / (1000 * (K + 1)) * (K + 1) = 1 / 1000 := by field_simp
  refine ⟨K, 1 / (1000 * (K + 1)), ?_⟩
  generalize 1 / (1000 * (K + 1)) = η at hη hη1 hηK
  set e : Vec 5 := ![η, 0, 0, 0, 0] with he
  have hg : (exMat exEl).el.getGmod = .ok exEl.kGmod := by
    show exEl.getGmod = _
    unfold Elast.getGmod
    rw [if_neg (not_le.2 exEl_pos)]
  have hok : ∃ m', getResponseSngl exExt (exMat exEl) (exInp exEl e) (exMem e none) = .ok m'
      ∧ m'.hist = (Step.newHist exExt (exInp exEl e) (Hist.ofArray (exMem e none).hist)
        (fun _ => 1) (exProb exEl e (symmToVecd (dev (sym (exL exEl e))))
          (axial (exL exEl e)))
        { converged := true, x := 0, xLast := 0, nFEvals := 1 } false).toArray := by
    unfold getResponseSngl
    rw [ex_setup]
    simp only [Step.run, ex_solve, hg]
    exact ⟨_, rfl, rfl⟩
  obtain ⟨m', ok, hh⟩ := hok
  obtain ⟨hd, hw⟩ := slight_rate η hη.le
  rw [← he] at hd hw
  refine ⟨m', hK0, hη, hK, probe_sound 8, rfl, fun E hE => (exEl_ddot E hE).ge, fun E hE => (exEl_ddot E hE).le,
    ?_, ok, C79_voce voceExample (by norm_num [voceExample]) (by norm_num [voceExample]) _ _ _, fun i => ?_, ?_⟩
  · have : ∀ A : T3, IsDev (devOfSvecP (svecP (sym A))) := by
      intro A
      rw [isDev_iff]
      simp [devOfSvecP, svecP, sym, dev, Matrix.trace_fin_three]
      ring
    exact this _
  · unfold histOf
    rw [hh, Hist.ofArray_toArray]
    refine lt_of_le_of_lt (slight_gdot η hη.le i _ _) ?_
    norm_num
    linarith
  · have he' : (histOf (exMem e none)).e = e := by unfold histOf; rw [ex_ofArray]; rfl
    have hle : len e = η := by
      unfold len dot
      simp [Fin.sum_univ_five, he, Real.sqrt_mul_self hη.le]
    have hv : (1 : ℝ) ≤ ((exInp exEl e).vr 1) ^ (1 / 3 : ℝ) := by
      show (1 : ℝ) ≤ (2 : ℝ) ^ (1 / 3 : ℝ)
      exact Real.one_le_rpow (by norm_num) (by norm_num)
    rw [he', hle]
    have hgain : spinGain K (2 / 2) η (((exInp exEl e).vr 1) ^ (1 / 3 : ℝ)) ≤ K + 1 := by
      unfold spinGain
      rw [div_self two_ne_zero, Real.sqrt_one]
      have : 1 * η / ((exInp exEl e).vr 1) ^ (1 / 3 : ℝ) ≤ 1 := by
        rw [div_le_one (by linarith)]; linarith
      linarith
    have hdt : (exInp exEl e).dt = 1 := rfl
    rw [hdt, one_mul]
    have h1 := mul_le_mul hgain hd (frob_nonneg _) (by linarith)
    nlinarith

end Ecm.Props
