/- Property theorems C85: crystals yield - the stress stays bounded however long the loading
   (src/ecmech/ECMech_evptn.h:385-700, src/ecmech/ECMech_kinetics_VocePL.h:135-200, src/ecmech/ECMech_slipgeom.h:61-293).

   C69 bounds the elastic strain by what was supplied, which grows with time.  Here: whatever the stress, some slip system
   carries a fixed part of it (for the cubic systems 1/√18); where the slip law gives that system more slip than the loading
   supplies, the elastic strain cannot grow.  So the stress is bounded by the strength at the rate of loading, for ever. -/
import Verif.Lemmas.Yield
import Verif.Props.Heat

namespace Ecm.Props
open Ecm Spec Classical

variable {n nH nV : ℕ}

/-! ### Slip systems -/

/-- in any stress state some system carries at least the part `c` of the stress -/
def Activates (m s : Fin n → Vec 3) (c : ℝ) : Prop :=
  ∀ T : T3, IsDev T → ∃ i, c * frob T ≤ |dot (s i) (T.mulVec (m i))|

theorem frob_vecdToSymm (v : Vec 5) : frob (vecdToSymm v) = vecNorm v := by
  unfold frob vecNorm
  congr 1
  simp only [ddot, Fin.sum_univ_three, Fin.sum_univ_five, vecdToSymm, ofSvecP, vecdsToSvecP,
    Matrix.of_apply, Matrix.cons_val]
  sqr_ring

/-- **C85, tables.** The part of the stress that the systems carry is the part that the code's 5-vectors carry. -/
theorem C85_tables (m s : Fin n → Vec 3) (hms : ∀ i, IsSlipSystem (m i) (s i)) (c : ℝ) :
    Resolves (slipPQ m s).P c ↔ Activates m s c := by
  constructor
  · intro h T hT
    obtain ⟨i, hi⟩ := h (symmToVecd T)
    refine ⟨i, ?_⟩
    rw [C18_resolved_shear m s T hT.1 i (hms i).2.2] at hi
    rwa [← frob_vecdToSymm, vecdToSymm_symmToVecd T hT] at hi
  · intro h y
    have hT : IsDev (vecdToSymm y) := vecdToSymm_isDev y
    obtain ⟨i, hi⟩ := h _ hT
    refine ⟨i, ?_⟩
    rw [← C18_resolved_shear m s _ hT.1 i (hms i).2.2, frob_vecdToSymm, symmToVecd_vecdToSymm] at hi
    exact hi

/-- **C85, systems in general.** If no stress but zero leaves all systems without resolved stress, then some system carries a
    fixed part of any stress. -/
theorem C85_systems [NeZero n] (m s : Fin n → Vec 3) (hms : ∀ i, IsSlipSystem (m i) (s i))
    (h : ∀ T, IsDev T → (∀ i, dot (s i) (T.mulVec (m i)) = 0) → T = 0) : ∃ c > 0, Activates m s c := by
  obtain ⟨c, hc, hr⟩ := resolves_of_ker (slipPQ m s).P (by
    intro y hy
    have hT : IsDev (vecdToSymm y) := vecdToSymm_isDev y
    have h0 := h _ hT fun i => by
      rw [← C18_resolved_shear m s _ hT.1 i (hms i).2.2, symmToVecd_vecdToSymm]; exact hy i
    have h1 := frob_vecdToSymm y
    rw [h0] at h1
    refine vecNorm_eq_zero (h1.symm.trans ?_)
    simp [frob, ddot])
  exact ⟨c, hc, (C85_tables m s hms c).1 hr⟩

/-- **C85, FCC systems** carry at least `1/√18` of any stress. -/
theorem C85_fcc : Activates fccM fccS (1 / Real.sqrt 18) := by
  intro T hT
  refine resolved_111 T hT _ fun i => ?_
  rw [resolved_int fccM_int fccS_int, mul_pow, mul_pow, sq sqr3i, sq sqr2i, sqr3i_sq, sqr2i_sq]
  norm_num

/-- **C85, BCC systems**: the twelve, twenty-four or forty-eight systems carry at least `1/√18` of any stress. -/
theorem C85_bcc : Activates bccM12 bccS12 (1 / Real.sqrt 18) ∧ Activates bccM24 bccS24 (1 / Real.sqrt 18) ∧
    Activates bccM48 bccS48 (1 / Real.sqrt 18) := by
  have h : Activates bccM12 bccS12 (1 / Real.sqrt 18) := by
    intro T hT
    refine resolved_111 T hT _ fun i => ?_
    show dot (bccBaseS i) (T.mulVec (bccBaseM i)) ^ 2 = _
    rw [resolved_int bccBaseM_int bccBaseS_int, mul_pow, mul_pow, sq sqr3i, sq sqr2i, sqr3i_sq, sqr2i_sq]
    have : ∑ k, ∑ l, (i111 i k : ℝ) * (T k l * (i110 i l : ℝ)) = ∑ k, ∑ l, (i110 i k : ℝ) * (T k l * (i111 i l : ℝ)) := by
      rw [Finset.sum_comm]
      refine Finset.sum_congr rfl fun k _ => Finset.sum_congr rfl fun l _ => ?_
      rw [hT.1.apply k l]
      ring
    rw [this]
    norm_num
  refine ⟨h, fun T hT => ?_, fun T hT => ?_⟩
  · obtain ⟨i, hi⟩ := h T hT
    exact ⟨Fin.castAdd 12 i, by
      simp only [bccM24, bccS24, Fin.append_left]
      exact hi⟩
  · obtain ⟨i, hi⟩ := h T hT
    exact ⟨Fin.castAdd 24 (Fin.castAdd 12 i), by
      simp only [bccM48, bccS48, bccM24, bccS24, Fin.append_left]
      exact hi⟩

/-! ### One step -/

/-- with strengths `h` at temperature `T`, systems that carry `τY` or more slip at rate `γY` at least, along the stress -/
def YieldsAt (K : Kin n nH) (T : ℝ) (h : Vec nH) (τY γY : ℝ) : Prop :=
  ∀ p v sc, K.getVals p T h = .ok (v, sc) → ∀ i τ, τY ≤ |τ| → γY * |τ| ≤ τ * (K.evalGdot v i τ).gdot

/-- the smallest shear stiffness -/
noncomputable def soft (c11 c12 c44 : ℝ) : ℝ := min (c11 - c12) (2 * c44)

/-- the rate at which the loading and the solver tolerance supply elastic strain, without the stiffness -/
noncomputable def loadRate (A : ℝ) (inp : Inputs) : ℝ :=
  frob (devOfSvecP inp.d) + inp.tol * (A + frob (devOfSvecP inp.d) + 1 / 10 ^ 6 / inp.dt)

/-- **C85, one step.** After a step of any length either the elastic strain is smaller than what the yield stress `τY` carries,
    or it grew by no more than the loading supplied less the slip at the yield stress. -/
theorem C85_step (X : Ext) (hX : X.solver.Sound) (M : Material n nH) (c11 c12 c44 : ℝ)
    (hel : M.el = .cubic c11 c12 c44) (hc : c12 < c11 ∧ 0 < c44) (m s : Fin n → Vec 3) (hgeom : M.geom = slipPQ m s)
    (hms : ∀ i, IsSlipSystem (m i) (s i)) {c : ℝ} (hc0 : 0 < c) (hac : Activates m s c) (A : ℝ)
    (inp : Inputs) (hdt : 0 < inp.dt) (hd : IsDev (devOfSvecP inp.d))
    (mem mem' : Mem nH n) (h : getResponseSngl X M inp mem = .ok mem')
    (hA : ∀ v sc, M.kin.getVals (Step.eosUpdate M inp mem).press (Step.tK M inp mem) (histOf mem').h = .ok (v, sc) →
      0 < M.kin.fixedRefRate v ∧ M.kin.fixedRefRate v ≤ A) (hK : DissipativeAt M.kin mem'.tkelv)
    {τY γY : ℝ} (hτ : 0 < τY) (hγ : 0 ≤ γY) (hY : YieldsAt M.kin mem'.tkelv (histOf mem').h τY γY) :
    c * Real.sqrt (soft c11 c12 c44) * energyNorm M.el (vecdToSymm (histOf mem').e) < τY * (inp.vr 1) ^ (1 / 3 : ℝ) ∨
    energyNorm M.el (vecdToSymm (histOf mem').e) ≤ energyNorm M.el (vecdToSymm (histOf mem).e)
      + inp.dt * (inp.vr 1) ^ (1 / 3 : ℝ) * (Real.sqrt (stiff c11 c12 c44) * loadRate A inp
        - c * Real.sqrt (soft c11 c12 c44) * γY) := by
  rcases lt_or_ge (c * Real.sqrt (soft c11 c12 c44) * energyNorm M.el (vecdToSymm (histOf mem').e))
    (τY * (inp.vr 1) ^ (1 / 3 : ℝ)) with hlt | hge
  · exact Or.inl hlt
  right
  obtain ⟨s'⟩ := getResponseSngl_ok h
  have hh : (histOf mem').h = s'.hU := by rw [OkStep.hist_eq s']; rfl
  rw [s'.htk] at hK hY
  rw [hh] at hA hY
  have he : (histOf mem').e = s'.P.eF (Step.solve X inp s'.P).x := by rw [OkStep.hist_eq s']; rfl
  have heN : s'.P.eN = (histOf mem).e := by rw [s'.hP]
  have hPel : s'.P.el = M.el := by rw [s'.hP]
  have hPdt : s'.P.dt = inp.dt := by rw [s'.hP]
  have hPv : s'.P.detV = inp.vr 1 := by rw [s'.hP]
  have hPd : s'.P.dSm = svecToVecd inp.d := by rw [s'.hP]
  have hPa : s'.P.adotsRef = M.kin.fixedRefRate s'.v := by rw [s'.hP]
  have hPg : s'.P.geom = M.geom := by rw [s'.hP]
  have hcn : qn s'.P.cN = 1 := by rw [s'.hP]; exact qn_quatN s'.hq
  obtain ⟨ha0, ha1⟩ := hA _ _ s'.hV
  rw [← hPa] at ha0 ha1
  have hκ : ∀ k, s'.P.el.kDiag k ≤ stiff c11 c12 c44 := by
    intro k
    rw [hPel, hel]
    unfold stiff
    fin_cases k <;> simp [Elast.kDiag]
  have hκ0 : ∀ k, soft c11 c12 c44 ≤ s'.P.el.kDiag k := by
    intro k
    rw [hPel, hel]
    unfold soft
    fin_cases k <;> simp [Elast.kDiag]
  have hsoft : 0 < soft c11 c12 c44 := lt_min (by linarith [hc.1]) (by linarith [hc.2])
  have hgd : s'.P.gd = M.kin.evalGdot s'.v := by rw [s'.hP]
  have hG : Resolves s'.P.geom.P c := by
    rw [hPg, hgeom]; exact (C85_tables m s hms c).2 hac
  rw [energyNorm_eq, energyNorm_eq, he, ← heN, ← hPel]
  rw [energyNorm_eq, he, ← hPel, ← hPv] at hge
  have hstep := s'.P.wNorm_yield (hPel.trans hel) hκ hsoft hκ0 (hPdt ▸ hdt) (hPv ▸ s'.hv) hcn hc0 hG
    (Step.solve X inp s'.P).x (fun i => by
      simp only [Updst.gdot, hgd]
      exact hK _ _ _ _ s'.hV i _) hτ hγ (fun i hi => by
      simp only [Updst.gdot, hgd]
      exact hY _ _ _ s'.hV i _ hi) hge
  obtain ⟨⟨r, J, hr, hrt⟩, -⟩ := hX _ _ _ _ s'.hc
  have hr' : r = s'.P.resid (Step.solve X inp s'.P).x := by
    have : some (s'.P.resid (Step.solve X inp s'.P).x, _) = some (r, J) := hr
    exact (Prod.mk.inj (Option.some.inj this)).1.symm
  rw [hr'] at hrt
  have hres := s'.P.residE_le (hPdt ▸ hdt) ha0 hrt
  have htol : 0 ≤ inp.tol := (vecNorm_nonneg _).trans hrt
  refine hstep.trans (add_le_add le_rfl ?_)
  rw [← hPdt, ← hPv]
  have haV := s'.P.aV_pos (hPv ▸ s'.hv)
  refine mul_le_mul_of_nonneg_left (sub_le_sub_right ?_ _) (mul_pos (hPdt ▸ hdt) haV).le
  refine mul_le_mul_of_nonneg_left ?_ (Real.sqrt_nonneg _)
  unfold loadRate
  rw [frob_eq hd, ← hPd, ← hPdt]
  have := mul_le_mul_of_nonneg_left ha1 htol
  nlinarith [hres]

/-! ### Histories -/

/-- **C85, histories.** If in every step the slip at the yield stress exceeds the loading by the margin `δ`, then the elastic
    strain falls at the rate `δ` until it is below what the yield stress carries, and never again exceeds that: a bound
    that does not grow with the number of steps. -/
theorem C85_history {M : Material n nH} {N : ℕ} (t : Trajectory M N)
    (hX : ∀ k < N, (t.X k).solver.Sound) (c11 c12 c44 : ℝ)
    (hel : M.el = .cubic c11 c12 c44) (hc : c12 < c11 ∧ 0 < c44) (m s : Fin n → Vec 3) (hgeom : M.geom = slipPQ m s)
    (hms : ∀ i, IsSlipSystem (m i) (s i)) {c : ℝ} (hc0 : 0 < c) (hac : Activates m s c) (A : ℝ)
    (hA : RefRateAtMost M.kin A) (hdt : ∀ k < N, 0 < (t.inp k).dt)
    (hd : ∀ k < N, IsDev (devOfSvecP (t.inp k).d)) (hK : ∀ k < N, DissipativeAt M.kin (t.m' k).tkelv)
    {τY γY δ Y : ℝ} (hτ : 0 < τY) (hγ : 0 ≤ γY) (hδ : 0 ≤ δ)
    (hyield : ∀ k < N, YieldsAt M.kin (t.m' k).tkelv (histOf (t.m' k)).h τY γY)
    (hload : ∀ k < N, Real.sqrt (stiff c11 c12 c44) * loadRate A (t.inp k) + δ ≤ c * Real.sqrt (soft c11 c12 c44) * γY)
    (hY : ∀ k < N, τY * ((t.inp k).vr 1) ^ (1 / 3 : ℝ) ≤ c * Real.sqrt (soft c11 c12 c44) * Y) (K : ℕ) (hKN : K < N) :
    energyNorm M.el (vecdToSymm (histOf (t.m' K)).e) ≤ max Y (energyNorm M.el (vecdToSymm (histOf (t.m 0)).e)
      - δ * ∑ k ∈ Finset.range (K + 1), (t.inp k).dt * ((t.inp k).vr 1) ^ (1 / 3 : ℝ)) := by
  have hsoft : 0 < c * Real.sqrt (soft c11 c12 c44) :=
    mul_pos hc0 (Real.sqrt_pos.2 (lt_min (by linarith [hc.1]) (by linarith [hc.2])))
  have hs : ∀ k, k < N → energyNorm M.el (vecdToSymm (histOf (t.m' k)).e) ≤ max Y
      (energyNorm M.el (vecdToSymm (histOf (t.m k)).e) - δ * ((t.inp k).dt * ((t.inp k).vr 1) ^ (1 / 3 : ℝ))) := by
    intro k hk
    rcases C85_step (t.X k) (hX k hk) M c11 c12 c44 hel hc m s hgeom hms hc0 hac A (t.inp k) (hdt k hk) (hd k hk) _ _
      (t.ok k hk) (fun v sc hv => hA _ _ _ v sc hv) (hK k hk) hτ hγ (hyield k hk) with h1 | h1
    · refine le_max_of_le_left (le_of_mul_le_mul_left ?_ hsoft)
      exact h1.le.trans (hY k hk)
    · refine le_max_of_le_right (h1.trans ?_)
      have hV : 0 < (t.inp k).vr 1 := by
        obtain ⟨s'⟩ := getResponseSngl_ok (t.ok k hk)
        exact s'.hv
      have h2 : 0 ≤ (t.inp k).dt * ((t.inp k).vr 1) ^ (1 / 3 : ℝ) :=
        mul_nonneg (hdt k hk).le (Real.rpow_nonneg hV.le _)
      have h3 := mul_le_mul_of_nonneg_left (hload k hk) h2
      linarith
  induction K with
  | zero => simpa using hs 0 hKN
  | succ K ih =>
    have h1 := hs _ hKN
    have h2 : histOf (t.m (K + 1)) = histOf (t.m' K) := by unfold histOf; rw [t.link K hKN]
    rw [h2] at h1
    rw [Finset.sum_range_succ]
    have h3 := ih (by omega)
    refine h1.trans (max_le (le_max_left _ _) ?_)
    have hV : 0 < (t.inp (K + 1)).vr 1 := by
      obtain ⟨s'⟩ := getResponseSngl_ok (t.ok _ hKN)
      exact s'.hv
    have h4 : 0 ≤ δ * ((t.inp (K + 1)).dt * ((t.inp (K + 1)).vr 1) ^ (1 / 3 : ℝ)) :=
      mul_nonneg hδ (mul_nonneg (hdt _ hKN).le (Real.rpow_nonneg hV.le _))
    rcases le_max_iff.1 h3 with h5 | h5
    · exact le_max_of_le_left (by linarith)
    · exact le_max_of_le_right (by linarith)

/-! ### Power-law slip -/

/-- **C85, power law.** With strength at most `G`, at a stress of `G r^m` the slip rate is at least `r` reference rates. -/
theorem C85_voce (k : Voce) (hm : 0 < k.xm) (hw : 0 < k.gamW) (S : Solver 1) (T : ℝ) (h : Vec 1) {G r : ℝ}
    (hG : h 0 ≤ G) (hr : 1 / 10 ^ 60 < r) (hr' : r ≤ 10 ^ 45) :
    YieldsAt (k.kin S n) T h (G * r ^ k.xm) (r * k.gamW) := by
  intro p v sc hv i τ hτ
  simp only [Voce.kin] at hv
  split_ifs at hv with h0
  cases hv
  have hr0 : 0 < r := lt_trans (by norm_num) hr
  have hg : r ^ k.xm ≤ |τ| / h 0 := by
    rw [le_div_iff₀ h0]
    refine le_trans ?_ hτ
    rw [mul_comm]
    exact mul_le_mul_of_nonneg_right hG (Real.rpow_nonneg hr0.le _)
  have hlow : (1 / 10 ^ 60 : ℝ) ^ k.xm < |τ| / h 0 :=
    (Real.rpow_lt_rpow (by norm_num) hr hm).trans_le hg
  have hsgn : τ * (if 0 < τ then 1 else -1) = |τ| := by
    split_ifs with h1
    · rw [abs_of_pos h1, mul_one]
    · rw [abs_of_nonpos (not_lt.1 h1)]; ring
  show r * k.gamW * |τ| ≤ τ * (k.evalGdot (h 0) τ).gdot
  rcases le_or_gt (|τ| / h 0) ((10 ^ 60 : ℝ) ^ k.xm) with h2 | h2
  · rw [C24_value k _ τ h0 hlow h2, ← mul_assoc, hsgn, mul_comm]
    refine mul_le_mul_of_nonneg_left ?_ (abs_nonneg _)
    rw [mul_comm]
    refine mul_le_mul_of_nonneg_left ?_ hw.le
    have := Real.rpow_le_rpow (Real.rpow_nonneg hr0.le _) hg (one_div_pos.2 hm).le
    rwa [← Real.rpow_mul hr0.le, mul_one_div_cancel hm.ne', Real.rpow_one] at this
  · rw [C24_overflow k hm hw.le _ τ h0 h2, ← mul_assoc, hsgn, mul_comm]
    exact mul_le_mul_of_nonneg_left (mul_le_mul_of_nonneg_right hr' hw.le) (abs_nonneg _)

/-- **C85, strength.** In a step the strength grows beyond its value and the saturation value by the solver tolerance at most. -/
theorem C85_strength {M : Material n 1} {k : Voce} {S : Solver 1} (hS : Finds S) (hkin : M.kin = k.kin S n)
    (hlin : k.nonlinear = false) (hθ : 0 ≤ k.h0) (X : Ext) (inp : Inputs) (hdt : 0 ≤ inp.dt) (mem mem' : Mem 1 n)
    (h : getResponseSngl X M inp mem = .ok mem') {g : ℝ} (hg : (histOf mem).h 0 ≤ g)
    (hs : voceSat k.taus0 k.gamss0 k.xms (∑ i, |(histOf mem).gdot i|) ≤ g) :
    (histOf mem').h 0 ≤ g + 1 / 10 ^ 10 * max ((histOf mem).h 0) 1 := by
  obtain ⟨s⟩ := getResponseSngl_ok h
  have hh : (histOf mem').h = s.hU := by rw [OkStep.hist_eq s]; rfl
  have hH := s.hH
  rw [hkin] at hH
  obtain ⟨z, hz, hn⟩ := C27_update k hlin hθ S hS.sound _ _ hdt _ _ _ hH
  have hγ : 0 ≤ ∑ i, |(histOf mem).gdot i| := Finset.sum_nonneg fun i _ => abs_nonneg _
  obtain ⟨-, h2, -⟩ := (C27_solution k.h0 k.tausi _ _ ((histOf mem).h 0) inp.dt hθ hγ hdt).2 z hz
  have h3 : z ≤ g := h2.trans (max_le hg hs)
  have h4 := (abs_le.1 hn).2
  rw [hh]
  linarith

/-- a loading that slip at `r` reference rates can follow, at strengths up to `G`, with elastic strain of size `E` -/
structure Followed (k : Voce) (c κ κ0 G r E : ℝ) (inp : Inputs) : Prop where
  rate : Real.sqrt κ * loadRate k.gamW inp ≤ c * Real.sqrt κ0 * (r * k.gamW)
  yield : G * r ^ k.xm * (inp.vr 1) ^ (1 / 3 : ℝ) ≤ c * Real.sqrt κ0 * E

/-- **C85, endless loading.** A cubic crystal with power-law slip goes through any history of at most a thousand million
    steps whose rates its slip systems can follow; the elastic strain never exceeds the bound `E` given by the
    strength at that rate, nor the stress what follows from it.  In contrast to C82 neither bound nor conditions
    depend on the strain accumulated. -/
theorem C85_endless {M : Material n 1} {k : Voce} {S : Solver 1} (hS : Finds S) {c11 c12 c44 : ℝ}
    (hM : PowerCubic M k S c11 c12 c44) (m s : Fin n → Vec 3) (hgeom : M.geom = slipPQ m s)
    (hms : ∀ i, IsSlipSystem (m i) (s i)) {c : ℝ} (hc0 : 0 < c) (hac : Activates m s c)
    {H hm : ℝ} (hk : Steady n k H) (hm0 : 0 < hm) (hmt : hm ≤ k.tausi) {K : ℕ}
    (hK : K ≤ 10 ^ 9) (hKm : K * (4 / 10 ^ 10 * H) ≤ hm) {g G r E : ℝ}
    (hsat : ∀ γ, 0 ≤ γ → γ ≤ n * (10 ^ 60 * k.gamW) → voceSat k.taus0 k.gamss0 k.xms γ ≤ g)
    (hgG : g + 2 / 10 ^ 10 * H * K ≤ G) (hG0 : 0 < G) (hr : 1 / 10 ^ 60 < r) (hr' : r ≤ 10 ^ 45)
    (X : ℕ → Ext) (hX : ∀ j < K, Finds (X j).solver)
    (hL : ∀ j < K, ∀ A B, ((X j).lup A B).isSome) (inp : ℕ → Inputs)
    (hi : ∀ j < K, Loads n k (stiff c11 c12 c44) (hm / 2) E (inp j))
    (hf : ∀ j < K, Followed k c (stiff c11 c12 c44) (soft c11 c12 c44) G r E (inp j))
    (next : ℕ → Mem 1 n → Mem 1 n) (hnext : ∀ j m, (next j m).hist = m.hist) (m0 : Mem 1 n)
    (hr0 : InRange k M.el hm H E (histOf m0)) (hg0 : (histOf m0).h 0 ≤ g) :
    ∃ t : Trajectory M K, t.X = X ∧ t.inp = inp ∧ t.m 0 = m0 ∧ (∀ j, t.m (j + 1) = next j (t.m' j)) ∧
      ∀ j < K, InRange k M.el (hm / 2) G E (histOf (t.m' j)) ∧
        frob (devOfSvecP (t.m' j).stress) * ((inp j).vr 1 * ((inp j).vr 1) ^ (1 / 3 : ℝ))
          ≤ Real.sqrt (stiff c11 c12 c44) * E := by
  let out : ℕ → Mem 1 n → Mem 1 n := fun j m =>
    match getResponseSngl (X j) M (inp j) m with
    | .ok m' => m'
    | _ => m
  let mm : ℕ → Mem 1 n := fun j => Nat.rec m0 (fun j m => next j (out j m)) j
  have hH := hk.one
  have hsoft : 0 < c * Real.sqrt (soft c11 c12 c44) :=
    mul_pos hc0 (Real.sqrt_pos.2 (lt_min (by linarith [hM.stable.1]) (by linarith [hM.stable.2])))
  have hr0' : 0 < r := lt_trans (by norm_num) hr
  have step : ∀ j < K, ∀ mem : Mem 1 n, InRange k M.el (lowAt hm H j) (highAt H j) E (histOf mem) →
      (histOf mem).h 0 ≤ g + 2 / 10 ^ 10 * H * j → ∃ m', getResponseSngl (X j) M (inp j) mem = .ok m' ∧
      InRange k M.el (lowAt hm H (j + 1)) (highAt H (j + 1)) E (histOf m') ∧
      (histOf m').h 0 ≤ g + 2 / 10 ^ 10 * H * (j + 1 : ℕ) := by
    intro j hj mem hin hgj
    have hjR : (j : ℝ) + 1 ≤ K := by exact_mod_cast hj
    have hj0 : (0 : ℝ) ≤ j := Nat.cast_nonneg j
    have hKR : (K : ℝ) ≤ 10 ^ 9 := by exact_mod_cast hK
    obtain ⟨m', h1, h2⟩ := C82_next hS hM hk hm0 hmt hK hKm j hj E (X j) (hX j hj) (inp j) (hi j hj) mem hin
      (Or.inr (hL j hj))
    have hu2 : highAt H j ≤ 2 * H := by
      have hjH : (j : ℝ) * H ≤ 10 ^ 9 * H := mul_le_mul_of_nonneg_right (by linarith) (by linarith)
      unfold highAt; nlinarith
    have hstr : (histOf m').h 0 ≤ g + 2 / 10 ^ 10 * H * (j + 1 : ℕ) := by
      have h3 := C85_strength hS hM.kin hk.linear hk.h0 (X j) (inp j) (hi j hj).dt.le mem m' h1 hgj (by
        have := hsat _ (Finset.sum_nonneg fun i _ => abs_nonneg _) hin.rates
        have h4 : 0 ≤ 2 / 10 ^ 10 * H * (j : ℝ) := by positivity
        linarith)
      have h4 : max ((histOf mem).h 0) 1 ≤ 2 * H := max_le (hin.high.trans hu2) (by linarith)
      push_cast
      linarith
    refine ⟨m', h1, ⟨h2.q, h2.low, h2.high, ?_, h2.rates⟩, hstr⟩
    have hG : (histOf m').h 0 ≤ G := by
      refine hstr.trans (le_trans ?_ hgG)
      have : 2 / 10 ^ 10 * H * ((j + 1 : ℕ) : ℝ) ≤ 2 / 10 ^ 10 * H * K :=
        mul_le_mul_of_nonneg_left (by push_cast; exact hjR) (by positivity)
      linarith
    have hdis : ∀ T, DissipativeAt M.kin T := by
      intro T
      rw [hM.kin]
      intro p h v sc hv i τ
      simp only [Voce.kin] at hv
      split_ifs at hv with h0
      cases hv
      exact (C24_sign k hk.xm hk.gamW _ τ h0).2.2
    rcases C85_step (X j) (hX j hj).sound M c11 c12 c44 hM.el hM.stable m s hgeom hms hc0 hac k.gamW (inp j) (hi j hj).dt
      (hi j hj).dev mem m' h1 (by rw [hM.kin]; exact fun v sc hv => C69_voce k S hk.gamW _ _ _ v sc hv) (hdis _)
      (mul_pos hG0 (Real.rpow_pos_of_pos hr0' k.xm)) (mul_nonneg hr0'.le hk.gamW.le)
      (by rw [hM.kin]; exact C85_voce k hk.xm hk.gamW S _ _ hG hr hr') with h5 | h5
    · exact le_of_mul_le_mul_left (h5.le.trans (hf j hj).yield) hsoft
    · refine h5.trans ?_
      have h6 := (hf j hj).rate
      have h7 : 0 ≤ (inp j).dt * ((inp j).vr 1) ^ (1 / 3 : ℝ) :=
        mul_nonneg (hi j hj).dt.le (Real.rpow_nonneg (hi j hj).vol.le _)
      have h8 := mul_le_mul_of_nonneg_left h6 h7
      have := hin.strain
      linarith
  have hhist : ∀ j, histOf (mm (j + 1)) = histOf (out j (mm j)) := by
    intro j
    show histOf (next j (out j (mm j))) = _
    unfold histOf
    rw [hnext]
  have key : ∀ j, j ≤ K → InRange k M.el (lowAt hm H j) (highAt H j) E (histOf (mm j)) ∧
      (histOf (mm j)).h 0 ≤ g + 2 / 10 ^ 10 * H * j := by
    intro j
    induction j with
    | zero =>
      intro _
      exact ⟨hr0.mono (by unfold lowAt; simp) (by unfold highAt; simp) le_rfl, by
        have e : mm 0 = m0 := rfl
        rw [e]; simpa using hg0⟩
    | succ j ih =>
      intro hj
      obtain ⟨a, b⟩ := ih (by omega)
      obtain ⟨m', h1, h2⟩ := step j (by omega) (mm j) a b
      rw [hhist j]
      simp only [out, h1]
      exact h2
  have hstep : ∀ j < K, getResponseSngl (X j) M (inp j) (mm j) = .ok (out j (mm j)) := by
    intro j hj
    obtain ⟨a, b⟩ := key j hj.le
    obtain ⟨m', h1, -⟩ := step j hj (mm j) a b
    simp only [out, h1]
  refine ⟨{ X := X, inp := inp, m := mm, m' := fun j => out j (mm j), ok := hstep
            link := fun j _ => hnext j _ }, rfl, rfl, rfl, fun j => rfl, ?_⟩
  intro j hj
  obtain ⟨a, b⟩ := key (j + 1) hj
  rw [hhist j] at a b
  have hjR : (j : ℝ) + 1 ≤ K := by exact_mod_cast hj
  refine ⟨⟨a.q, le_trans ?_ a.low, b.trans (le_trans ?_ hgG), a.strain, a.rates⟩, ?_⟩
  · have : ((j : ℝ) + 1) * (4 / 10 ^ 10 * H) ≤ K * (4 / 10 ^ 10 * H) :=
      mul_le_mul_of_nonneg_right hjR (by nlinarith)
    unfold lowAt; push_cast; linarith
  · have : 2 / 10 ^ 10 * H * ((j + 1 : ℕ) : ℝ) ≤ 2 / 10 ^ 10 * H * K :=
      mul_le_mul_of_nonneg_left (by push_cast; exact hjR) (by positivity)
    linarith
  · exact (C84_stress (X j) M c11 c12 c44 hM.el hM.stable (inp j) _ _ (hstep j hj)).trans
      (mul_le_mul_of_nonneg_left a.strain (Real.sqrt_nonneg _))

/-! ### Dislocation kinetics -/

/-- **C85, dislocation kinetics.** In the warm, a system that carries `τY` or more slips at least at the rate of the
    documented law at `τY`, up to 2e-22 reference rates. -/
theorem C85_kmbald [NeZero nV] (k : KMBalD nV) (S : Solver 1) (T : ℝ) (h : Vec 1) (hw : ∀ i : Fin n, Warm k (k.iVal i) T (h 0))
    {τY γY : ℝ} (hτ : 0 < τY)
    (hγ : ∀ i : Fin n, γY ≤ kmLaw k (k.iVal i) T (h 0) τY - 2 / 10 ^ 22 * (kmGamW k (h 0) + kmGamR k (h 0))) :
    YieldsAt (k.kin S n) T h τY γY := by
  intro p v sc hv i τ hi
  have hv' : k.getVals T h = .ok (v, sc) := hv
  have h1 := C83_law k i T h v sc hv' (hw i) τ
  obtain ⟨-, -, hγw, hγr, -⟩ := C64_values k (idealSolver 1) n T h v sc hv'
  rw [hγw, hγr] at h1
  have h2 := (hw i).toKMState.law_mono (τ := τY) (σ := τ) (by rwa [abs_of_pos hτ])
  have h3 := hγ i
  obtain ⟨h4, h5⟩ := abs_le.1 h1
  show γY * |τ| ≤ τ * (k.evalGdot v i τ).gdot
  unfold kmSlip at h4 h5
  split_ifs at h4 h5 with h6
  · rw [abs_of_nonneg h6, mul_comm]
    exact mul_le_mul_of_nonneg_left (by linarith) h6
  · have h7 : τ < 0 := not_le.1 h6
    rw [abs_of_neg h7]
    have : γY ≤ -(k.evalGdot v i τ).gdot := by linarith
    nlinarith

/-! ### Concrete cases -/

theorem drv_frob (tol : ℝ) : frob (devOfSvecP (drvInp tol).d) ≤ 1.2248 ∧ IsDev (devOfSvecP (drvInp tol).d) := by
  constructor
  · unfold frob
    rw [Real.sqrt_le_left (by norm_num)]
    simp [ddot, Fin.sum_univ_three, devOfSvecP, drvInp]
    norm_num
  · rw [isDev_iff]
    simp [devOfSvecP, drvInp]
    norm_num

theorem copper_rate : Real.sqrt (stiff 168.4 121.4 75.2) * 1.23 ≤ 1 / Real.sqrt 18 * Real.sqrt (soft 168.4 121.4 75.2) * 10 := by
  have e1 : stiff 168.4 121.4 75.2 = 150.4 := by unfold stiff; norm_num
  have e2 : soft 168.4 121.4 75.2 = 47 := by unfold soft; norm_num
  rw [e1, e2]
  have h1 : Real.sqrt 150.4 ≤ 12.27 := by rw [Real.sqrt_le_left (by norm_num)]; norm_num
  have h2 : Real.sqrt 18 ≤ 4.243 := by rw [Real.sqrt_le_left (by norm_num)]; norm_num
  have h3 : 6.85 ≤ Real.sqrt 47 := by rw [Real.le_sqrt' (by norm_num)]; norm_num
  have h4 : 0 < Real.sqrt 18 := Real.sqrt_pos.2 (by norm_num)
  rw [one_div, mul_assoc, ← div_eq_inv_mul, le_div_iff₀ h4]
  calc Real.sqrt 150.4 * 1.23 * Real.sqrt 18 ≤ 12.27 * 1.23 * 4.243 := by
        refine mul_le_mul (mul_le_mul_of_nonneg_right h1 (by norm_num)) h2 h4.le (by norm_num)
    _ ≤ 6.85 * 10 := by norm_num
    _ ≤ _ := by linarith

/-- the copper of the parameter files, pulled for ten million steps of the example program, to a strain of 2500: the
    deviatoric stress stays below 1.3 GPa, and every step yields as C85_history asks -/
example (m0 : Mem 1 12) (hq : (histOf m0).q ≠ 0) (he : (histOf m0).e = 0) (hh : (histOf m0).h 0 = 17e-3)
    (hg : (histOf m0).gdot = 0) : ∃ t : Trajectory (⟨slipPQ fccM fccS, copperVoce.kin (idealSolver 1) 12,
      .cubic 168.4 121.4 75.2, ⟨false, 8.92e-6, 137, 0.003435984, 1.7, -1.0307952⟩⟩ : Material 12 1) (10 ^ 7),
      t.inp = (fun _ => drvInp 1e-10) ∧ t.m 0 = m0 ∧
      ∀ j < 10 ^ 7, frob (devOfSvecP (t.m' j).stress) ≤ 1.3 ∧
        YieldsAt (copperVoce.kin (idealSolver 1) 12) (t.m' j).tkelv (histOf (t.m' j)).h (0.13 * 10 ^ copperVoce.xm)
          (10 * copperVoce.gamW) := by
  have hM : PowerCubic (⟨slipPQ fccM fccS, copperVoce.kin (idealSolver 1) 12,
      .cubic 168.4 121.4 75.2, ⟨false, 8.92e-6, 137, 0.003435984, 1.7, -1.0307952⟩⟩ : Material 12 1) copperVoce
      (idealSolver 1) 168.4 121.4 75.2 :=
    ⟨⟨fccM, fccS, rfl, C16_fcc.1⟩, rfl, rfl, by norm_num, by norm_num⟩
  have hκ : stiff 168.4 121.4 75.2 = 150.4 := by unfold stiff; norm_num
  have hκ0 : soft 168.4 121.4 75.2 = 47 := by unfold soft; norm_num
  have hw : copperVoce.gamW = 1 := rfl
  have hx : copperVoce.xm = 0.02 := rfl
  have hv : ((drvInp 1e-10).vr 1) = 1 := rfl
  have hdt : (drvInp 1e-10).dt = 1 / 4000 := rfl
  have htol : (drvInp 1e-10).tol = 1e-10 := rfl
  obtain ⟨hf, hdev⟩ := drv_frob 1e-10
  have hf0 : 0 ≤ frob (devOfSvecP (drvInp 1e-10).d) := Real.sqrt_nonneg _
  have h150 : Real.sqrt 150.4 ≤ 12.27 := by rw [Real.sqrt_le_left (by norm_num)]; norm_num
  have hpow : (1 : ℝ) ≤ (10 ^ 60 : ℝ) ^ (0.02 : ℝ) := Real.one_le_rpow (by norm_num) (by norm_num)
  have hload : Loads 12 copperVoce (stiff 168.4 121.4 75.2) (17e-3 / 2) 0.1 (drvInp 1e-10) := by
    refine ⟨by rw [hdt]; norm_num, by rw [hv]; norm_num, hdev, ?_, ?_⟩
    · unfold imposed
      rw [hκ, hv, hdt, hw, hx, Real.one_rpow]
      have h1 : Real.sqrt 150.4 * frob (devOfSvecP (drvInp 1e-10).d) ≤ 12.27 * 1.2248 :=
        mul_le_mul h150 hf hf0 (by norm_num)
      have h2 : 0 ≤ Real.sqrt 150.4 * frob (devOfSvecP (drvInp 1e-10).d) := mul_nonneg (Real.sqrt_nonneg _) hf0
      generalize Real.sqrt 150.4 * frob (devOfSvecP (drvInp 1e-10).d) = q at h1 h2
      generalize ((10 : ℝ) ^ 60) ^ (0.02 : ℝ) = w at hpow
      calc ((0.1 : ℝ) + 1 / 4000 * 1 * q) ^ 2 ≤ 1 := by nlinarith
        _ ≤ 4 * (1 / 4000 * 1 ^ 2) * (1 * (17e-3 / 2) * (10 ^ 60 * 1)) := by norm_num
        _ ≤ _ := by
          refine mul_le_mul_of_nonneg_left ?_ (by norm_num)
          refine mul_le_mul_of_nonneg_right ?_ (by norm_num)
          exact mul_le_mul_of_nonneg_right hpow (by norm_num)
    · have : len (drvInp 1e-10).w = 0 := by simp [len, dot, drvInp]
      rw [this, htol]
      norm_num
  have hrate : Followed copperVoce (1 / Real.sqrt 18) (stiff 168.4 121.4 75.2) (soft 168.4 121.4 75.2) 0.13 10 0.1
      (drvInp 1e-10) := by
    constructor
    · rw [hw, mul_one]
      refine le_trans (mul_le_mul_of_nonneg_left ?_ (Real.sqrt_nonneg _)) copper_rate
      unfold loadRate
      rw [htol, hdt]
      linarith
    · rw [hv, hx, Real.one_rpow, hκ0]
      have h1 : (10 : ℝ) ^ (0.02 : ℝ) ≤ 1.1 := by
        have : (10 : ℝ) ≤ 1.1 ^ (50 : ℝ) := by
          rw [show (50 : ℝ) = ((50 : ℕ) : ℝ) by norm_num, Real.rpow_natCast]; norm_num
        calc (10 : ℝ) ^ (0.02 : ℝ) ≤ (1.1 ^ (50 : ℝ)) ^ (0.02 : ℝ) :=
              Real.rpow_le_rpow (by norm_num) this (by norm_num)
          _ = 1.1 := by
              rw [← Real.rpow_mul (by norm_num), show (50 : ℝ) * 0.02 = 1 by norm_num, Real.rpow_one]
      have h2 : Real.sqrt 18 ≤ 4.243 := by rw [Real.sqrt_le_left (by norm_num)]; norm_num
      have h3 : 6.85 ≤ Real.sqrt 47 := by rw [Real.le_sqrt' (by norm_num)]; norm_num
      have h4 : 0 < Real.sqrt 18 := Real.sqrt_pos.2 (by norm_num)
      rw [one_div, mul_assoc _ _ (0.1 : ℝ), ← div_eq_inv_mul, le_div_iff₀ h4]
      generalize (10 : ℝ) ^ (0.02 : ℝ) = w at h1
      nlinarith
  obtain ⟨t, -, h2, h3, -, h5⟩ := C85_endless (idealSolver_finds 1) hM fccM fccS rfl C16_fcc.1
    (one_div_pos.2 (Real.sqrt_pos.2 (by norm_num : (0 : ℝ) < 18))) C85_fcc copper_steady (hm := 17e-3) (by norm_num)
    (by norm_num [copperVoce]) (K := 10 ^ 7) (by norm_num) (by norm_num) (g := 0.1224) (G := 0.13) (r := 10) (E := 0.1)
    (by
      intro γ _ _
      unfold voceSat
      have e : copperVoce.xms = 0 := rfl
      rw [e, Real.rpow_zero, mul_one, ite_self]
      norm_num [copperVoce]) (by norm_num) (by norm_num) (by norm_num) (by norm_num)
    (fun _ => ⟨idealSolver 8, fun _ B => some B, 1⟩)
    (fun _ _ => idealSolver_finds 8) (fun _ _ _ _ => rfl) (fun _ => drvInp 1e-10) (fun _ _ => hload) (fun _ _ => hrate)
    (fun _ m => m) (fun _ _ => rfl) m0 (by
      refine ⟨hq, hh.ge, by rw [hh]; norm_num, ?_, ?_⟩
      · rw [he, energyNorm_eq]
        unfold wNorm
        simp
        norm_num
      · rw [hg]
        simp only [Pi.zero_apply, abs_zero, Finset.sum_const_zero]
        rw [hw]
        norm_num) (by rw [hh]; norm_num)
  refine ⟨t, h2, h3, fun j hj => ?_⟩
  have h6 := (h5 j hj).2
  rw [hv, hκ, Real.one_rpow, mul_one, mul_one] at h6
  exact ⟨by linarith, C85_voce copperVoce copper_steady.xm copper_steady.gamW _ _ _ (h5 j hj).1.high (by norm_num)
    (by norm_num)⟩

/-- the dislocation kinetics of the tests at the first density: systems that carry 0.024 slip at rate 80 or more -/
example (S : Solver 1) : YieldsAt (testKM.kin S 12) 300 (fun _ => testKM.hdnInit) 0.024 80 := by
  have hρ : testKM.hdnInit = 0.25 := by norm_num [testKM]
  have hw : ∀ j, Warm testKM j 300 0.25 := fun j =>
    testKM_warm.warm j (by norm_num) (by norm_num) (by norm_num) (by norm_num)
  have hsq : Real.sqrt 0.25 = 0.5 := by
    rw [show (0.25 : ℝ) = 0.5 ^ 2 by norm_num]; exact Real.sqrt_sq (by norm_num)
  have hgw : kmGamW testKM 0.25 = 40 := by unfold kmGamW; rw [hsq]; norm_num [testKM]
  have hgr : kmGamR testKM 0.25 = 250 := by unfold kmGamR; norm_num [testKM]
  refine C85_kmbald testKM S 300 _ (fun i => by rw [hρ]; exact hw _) (by norm_num) fun i => ?_
  rw [hρ, hgw, hgr]
  set j := testKM.iVal i
  have hath : kmAth testKM j 0.25 = 0.004 := by
    simp only [kmAth, testKM, Bool.false_eq_true, if_false]; norm_num
  have hbar : kmBar testKM j 0.25 = 0.000125 := by
    simp only [kmBar, kmStrength, testKM, Bool.false_eq_true, if_false]; rw [hsq]; norm_num
  have ha : |(0.024 : ℝ)| = 0.024 := abs_of_pos (by norm_num)
  have ht : 1 ≤ kmT testKM j 0.25 0.024 := by unfold kmT; rw [hath, hbar, ha]; norm_num
  have hN : 0 ≤ kmN testKM j := by unfold kmN; norm_num [testKM]
  have hW : 400 ≤ kmWact testKM j 300 0.25 0.024 := by
    refine le_trans ?_ ((hw j).toKMState.W_ge 0.024)
    rw [hgw]
    have := Real.one_le_rpow ht hN
    linarith
  have hR : 125 ≤ kmRdrag testKM j 0.25 0.024 := by
    have hD : testKM.wrD = 0.02 := by norm_num [testKM]
    unfold kmRdrag kmDrag
    rw [hgr, hath, ha, hD, show ((0.024 : ℝ) - 0.004) / 0.02 = 1 by norm_num]
    have h1 : Real.exp (-1) ≤ 1 / 2 := by
      rw [Real.exp_neg, ← one_div]
      exact one_div_le_one_div_of_le (by norm_num) (by linarith [Real.add_one_le_exp (1 : ℝ)])
    linarith
  have h2 := KMBalD.harm_mono (by norm_num) (by norm_num) hW hR
  rw [(hw j).toKMState.law_harm (by rw [hath, ha]; norm_num)]
  refine le_trans ?_ (sub_le_sub_right h2 _)
  norm_num [KMBalD.harm]

end Ecm.Props
