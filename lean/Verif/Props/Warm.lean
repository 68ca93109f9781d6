/- Property theorems C83: from half the reference temperature on, crystals with dislocation kinetics go through whole
   histories of loading (src/ecmech/ECMech_kinetics_KMBalD.h:247-604, ECMech_evptn.h:998-1246 getResponseSngl).

   The slip law of the code has jumps (cut-offs, replaced arguments, a linearised exponential).  In the cold one of them
   leaves a step without solution (C78).  Here: in the warm all jumps together stay within 2e-22 reference rates of the
   documented law, which is continuous and rises with the stress, so that every step has an acceptable solution. -/
import Verif.Lemmas.KMWarm
import Verif.Props.Runs
import Verif.Props.TestStep
import Verif.Props.Tangent

namespace Ecm.Props
open Ecm Spec KMBalD

variable {n nV : ℕ} [NeZero nV]

/-! ### The slip law -/

/-- **C83, slip law.** At every stress the slip rate of the code is within 2e-22 reference rates of the documented law,
    with the sign of the stress. -/
theorem C83_law (k : KMBalD nV) (i : Fin n) (T : ℝ) (h : Vec 1) (v : KMVals nV) (sc : ℝ)
    (hv : k.getVals T h = .ok (v, sc)) (hw : Warm k (k.iVal i) T (h 0)) (τ : ℝ) :
    |(k.evalGdot v i τ).gdot - kmSlip k (k.iVal i) T (h 0) τ| ≤ 2 / 10 ^ 22 * (v.gamW + v.gamR) := by
  obtain ⟨-, -, hγw, hγr, hg, hct, -, -⟩ := C64_values k (idealSolver 1) n T h v sc hv
  set j := k.iVal i with hj
  have hAth : (if k.withGA then v.g j else k.tauA) = kmAth k j (h 0) := by
    unfold kmAth; rw [hg]
  have hgI : (if k.withGA then 1 / k.tauA else 1 / v.g j) = 1 / kmBar k j (h 0) := by
    unfold kmBar; rw [hg]; split_ifs <;> rfl
  have hn := hw.mag_near τ
  have hm0 := k.mag_nonneg (gAth := kmAth k j (h 0)) (xn := k.xn j) (tMin := k.tMin j) (tMax := k.tMax j)
    (a := |τ|) hw.gamW hw.gamR hw.A.le (one_div_pos.2 hw.bar) hw.par.p hw.q
  have e : (k.evalGdot v i τ).gdot = open Classical in
      if k.withGA = false ∧ τ = 0 then 0
      else copysign (k.mag (kmGamW k (h 0)) (kmGamR k (h 0)) (kmA k j T) (1 / kmBar k j (h 0)) (kmAth k j (h 0))
        (k.xn j) (k.tMin j) (k.tMax j) |τ|) τ := by
    unfold KMBalD.evalGdot
    simp only [← hj]
    rw [k.sel_mag (by rw [hγr]; exact hw.gamR) hw.par.D, hAth, hgI, hγw, hγr, hct]
  rw [e, hγw, hγr]
  generalize k.mag (kmGamW k (h 0)) (kmGamR k (h 0)) (kmA k j T) (1 / kmBar k j (h 0)) (kmAth k j (h 0))
        (k.xn j) (k.tMin j) (k.tMax j) |τ| = G at hn hm0
  unfold kmSlip
  split_ifs with h1 h2 h2
  · rw [h1.2, KMState.law_zero (by rw [abs_zero]; exact hw.ath)]
    have := hw.gamW; have := hw.gamR
    rw [sub_zero, abs_zero]; positivity
  · rw [h1.2] at h2; exact absurd le_rfl h2
  · unfold copysign
    rw [if_neg (not_lt.2 h2), abs_of_nonneg hm0]
    exact hn
  · unfold copysign
    rw [if_pos (not_le.1 h2), abs_of_nonneg hm0, sub_neg_eq_add, ← abs_neg, neg_add, neg_neg, ← sub_eq_add_neg]
    exact hn

/-! ### The equations of a step -/

/-- **C83, one problem.** In the warm the equations of a step have an acceptable point for every step length, rate, spin
    and state. -/
theorem C83_solution (P : Updst n) (m s : Fin n → Vec 3) (hgeom : P.geom = slipPQ m s)
    (hms : ∀ i, IsSlipSystem (m i) (s i)) (hcn : dot P.cN P.cN = 1) (hdt : 0 < P.dt) (hv : 0 < P.detV)
    (hst : ∀ E, IsDev E → E ≠ 0 → 0 < ddot E (refStress P.el E))
    (k : KMBalD nV) (T : ℝ) (h : Vec 1) (v : KMVals nV) (sc : ℝ) (hV : k.getVals T h = .ok (v, sc))
    (hw : ∀ i : Fin n, Warm k (k.iVal i) T (h 0))
    (hgd : ∀ i τ, (P.gd i τ).gdot = (k.evalGdot v i τ).gdot) (ha : P.adotsRef = v.gamW + v.gamR) (hn : 0 < n) :
    ∃ x, len (P.resid x) ≤ n * (2 / 10 ^ 13) + 1 / 10 ^ 79 * (1 + len P.wSm / (v.gamW + v.gamR)) := by
  have hK := (C47_positive_definite P.el).1 hst
  obtain ⟨-, -, hγw, hγr, -⟩ := C64_values k (idealSolver 1) n T h v sc hV
  have hw0 := hw ⟨0, hn⟩
  have hpos : 0 < v.gamW + v.gamR := by rw [hγw, hγr]; exact add_pos hw0.gamW hw0.gamR
  have e13 : (n : ℝ) * (2 / 10 ^ 13) = n * (2 / 10 ^ 22) * 10 ^ 9 := by ring
  rw [e13, ← ha]
  refine P.exists_near (h := fun i => kmSlip k (k.iVal i) T (h 0)) (by norm_num) (ha ▸ hpos)
    (fun i => (hw i).rate_continuous) (fun i => (hw i).rate_monotone) (fun i => (hw i).rate_zero)
    (hgeom ▸ slipPQ_le hms) hK (κ := ∑ i, P.el.kDiag i)
    (fun i => Finset.single_le_sum (f := P.el.kDiag) (fun j _ => (hK j).le) (Finset.mem_univ i)) hdt hv
    (by rwa [dot_self_quat] at hcn) fun i τ => Or.inl ?_
  rw [hgd, ha]
  exact C83_law k i T h v sc hV (hw i) τ

/-- **C83, update.** An update whose problem can be set up succeeds, with any solver that finds acceptable points, if the
    temperature and the new density are in the warm range: no step length, rate, spin, strain or stored slip rate stands
    in the way.  Slip systems and elasticity are arbitrary (stable). -/
theorem C83_update (M : Material n 1) (m s : Fin n → Vec 3) (hgeom : M.geom = slipPQ m s)
    (hms : ∀ i, IsSlipSystem (m i) (s i)) (hn : 0 < n) (k : KMBalD nV) (S : Solver 1) (hkin : M.kin = k.kin S n)
    (hst : ∀ E, IsDev E → E ≠ 0 → 0 < ddot E (refStress M.el E)) (inp : Inputs) (hdt : 0 < inp.dt) (mem : Mem 1 n)
    (hU : Vec 1) (P : Updst n) (hset : Step.setup M inp mem = .ok (hU, P))
    (hw : ∀ i : Fin n, Warm k (k.iVal i) (M.eos.evalPT (inp.vr 0) mem.eInt).2 (hU 0))
    (htol : n * (2 / 10 ^ 13) + 1 / 10 ^ 79 * (1 + len inp.w / (kmGamW k (hU 0) + kmGamR k (hU 0))) ≤ inp.tol)
    (X : Ext) (hX : Finds X.solver) (hL : mem.mtan = none ∨ ∀ A B, (X.lup A B).isSome) :
    ∃ mem', getResponseSngl X M inp mem = .ok mem' := by
  obtain ⟨kU, v, sc, hq, -, -, hv, -, hV, hP⟩ := Step.setup_ok hset
  have hK := (C47_positive_definite M.el).1 hst
  have hx : ∃ x, len (P.resid x) ≤ inp.tol := by
    obtain ⟨geom, kin, el, eos⟩ := M
    simp only at hkin hgeom hw
    subst hkin
    have hV' : k.getVals (eos.evalPT (inp.vr 0) mem.eInt).2 hU = .ok (v, sc) := hV
    obtain ⟨-, -, hγw, hγr, -⟩ := C64_values k S n _ hU v sc hV'
    obtain ⟨x, hx⟩ := C83_solution P m s (by rw [hP]; exact hgeom) hms
      (by rw [dot_self_quat, hP]; exact qn_quatN hq) (by rw [hP]; exact hdt) (by rw [hP]; exact hv)
      (by rw [hP]; exact hst) k _ hU v sc hV' hw (fun i τ => by rw [hP]; rfl) (by rw [hP]; rfl) hn
    refine ⟨x, hx.trans ?_⟩
    have hwS : P.wSm = inp.w := by rw [hP]
    rw [hwS, hγw, hγr]
    exact htol
  obtain ⟨x, hx⟩ := hx
  have hc : (Step.solve X inp P).converged = true :=
    hX.found _ _ _ _ ⟨x, P.resid x, P.jac x, rfl, hx⟩
  have ht : ∃ t, Step.tangent X (Step.eosUpdate M inp mem).bulkNew P (Step.solve X inp P).x mem.mtan.isSome
      = some t := by
    unfold Step.tangent
    rcases hL with hL | hL
    · rw [hL]; exact ⟨none, rfl⟩
    · split_ifs
      · unfold Updst.mtan
        obtain ⟨y, hy⟩ := Option.isSome_iff_exists.1 (hL (P.jacU (Step.solve X inp P).x)
          (P.pfracRhsT (Step.solve X inp P).x))
        rw [hy]
        exact ⟨_, rfl⟩
      · exact ⟨none, rfl⟩
  obtain ⟨t, ht⟩ := ht
  unfold getResponseSngl
  rw [hset]
  simp only [Step.run, hc, ht, getGmod_of_stable hK]
  exact ⟨_, rfl⟩

/-! ### The density -/

/-- the relative error of a density update, for densities up to `hi` -/
noncomputable def densErr (hi : ℝ) : ℝ := 1 / 10 ^ 10 * max (Real.log hi) 1

theorem densErr_pos (hi : ℝ) : 0 < densErr hi :=
  mul_pos (by norm_num) (lt_of_lt_of_le one_pos (le_max_right _ _))

/-- parameters with which the density, over steps up to `dt0` long, stays between `lo` and `hi`: for all slip rates that
    densities up to `hi` allow, the saturation density is at most `top`, and it is not below `lo`, or the recovery in a
    step is not enough to get there from the floor that the code sets (1e-4 initial densities) -/
structure DensRange (n : ℕ) (k : KMBalD nV) (lo top hi dt0 : ℝ) : Prop where
  k1 : 0 < k.k1
  k2o : 0 < k.k2o
  gammaO : 0 < k.gammaO
  hdnInit : 0 < k.hdnInit
  pos : 0 < lo
  floor : 2 * lo ≤ k.hdnInit / 10 ^ 4
  ftop : k.hdnInit / 10 ^ 4 ≤ top
  top_le : top ≤ hi
  err : densErr hi ≤ Real.log 2
  sat : ∀ σ, 0 ≤ σ → σ ≤ n * kmGamR k hi → (k.k1 / kmRecovery k.k2o k.gammaO k.ninv σ) ^ 2 ≤ top
  low : ∀ σ, 0 ≤ σ → σ ≤ n * kmGamR k hi → 2 * lo ≤ (k.k1 / kmRecovery k.k2o k.gammaO k.ninv σ) ^ 2 ∨
    dt0 * (kmRecovery k.k2o k.gammaO k.ninv σ * σ) ≤ Real.log (k.hdnInit / 10 ^ 4) - Real.log (2 * lo)

theorem kmRecovery_pos {k2o γ0 ν σ : ℝ} (h2 : 0 < k2o) (h0 : 0 < γ0) : 0 < kmRecovery k2o γ0 ν σ := by
  unfold kmRecovery
  split_ifs with h
  · exact mul_pos h2 (Real.rpow_pos_of_pos (div_pos h0 (lt_trans (by positivity) h)) _)
  · exact h2

omit [NeZero nV] in
/-- **C83, density.** The equation for the density always has a solution, so that the solver finds one; the new density
    is at least `lo` and above the old bound at most by the solver tolerance.  Any old density will do, even one that is
    not positive. -/
theorem C83_density {k : KMBalD nV} {lo top hi dt0 : ℝ} (hd : DensRange n k lo top hi dt0) (S : Solver 1) (hS : Finds S)
    (hsO : Vec 1) (dt : ℝ) (hdt : 0 ≤ dt) (hdt0 : dt ≤ dt0) (gdot : Vec n) (hσ : ∑ i, |gdot i| ≤ n * kmGamR k hi)
    (B : ℝ) (hB : Real.log top ≤ B) (hBhi : B ≤ Real.log hi) (hO : hsO 0 ≤ Real.exp B) :
    ∃ h' c, k.updateH S hsO dt gdot = .ok (h', c) ∧ lo ≤ h' 0 ∧ h' 0 ≤ Real.exp (B + densErr hi) := by
  have hγ : 0 ≤ ∑ i, |gdot i| := Finset.sum_nonneg fun i _ => abs_nonneg _
  have hm : k.hdnMin = k.hdnInit / 10 ^ 4 := by unfold KMBalD.hdnMin; norm_num; ring
  have hk2 := kmRecovery_pos (ν := k.ninv) (σ := ∑ i, |gdot i|) hd.k2o hd.gammaO
  have hf0 : 0 < k.hdnInit / 10 ^ 4 := div_pos hd.hdnInit (by norm_num)
  have htop : 0 < top := hf0.trans_le hd.ftop
  set rO := max (hsO 0) (k.hdnInit / 10 ^ 4) with hrO
  have hr0 : 0 < rO := lt_max_of_lt_right hf0
  have htB : top ≤ Real.exp B := by rw [← Real.exp_log htop]; exact Real.exp_le_exp.2 hB
  have hrB : rO ≤ Real.exp B := max_le hO (hd.ftop.trans htB)
  have hlog : Real.log rO ≤ B := by
    rw [← Real.log_exp B]; exact Real.log_le_log hr0 hrB
  set σ := ∑ i, |gdot i| with hσd
  set k2 := kmRecovery k.k2o k.gammaO k.ninv σ with hk2d
  obtain ⟨⟨y, hy, -⟩, hb⟩ := C31_solution k.k1 k2 σ rO dt hd.k1 hk2 hγ hr0 hdt
  obtain ⟨hb1, hb2, -⟩ := hb y hy
  have hok : ∃ h' c, k.updateH S hsO dt gdot = .ok (h', c) := by
    let P : H1Problem := { law := k.getSdot1 (k.getEvolVals gdot), hO := Real.log rO, dt := dt }
    have hx : P.getHn ((y - Real.log rO) / P.xScale) = y := by
      unfold H1Problem.getHn
      rw [div_mul_cancel₀ _ P.xScale_pos.ne']
      show Real.log rO + _ = _
      ring
    obtain ⟨J, hJ⟩ := (C13_hardening_single P ((y - Real.log rO) / P.xScale) (kmRate k.k1 k2 σ y)
      (-k.k1 * (1 / 2) * Real.exp (-(1 / 2) * y) * σ) (by rw [hx]; rfl)).2 (by rw [hx]; exact hy)
    have hc : (S P.problem (1 / 10 ^ 10) 100 fun _ => 0).converged = true := by
      refine hS.found _ _ _ _ ⟨fun _ => (y - Real.log rO) / P.xScale, fun _ => 0, fun _ _ => J, ?_, ?_⟩
      · unfold H1Problem.problem
        rw [hJ]; rfl
      · show Real.sqrt _ ≤ _
        simp [dot]
    unfold KMBalD.updateH
    rw [if_neg (not_le.2 hd.gammaO), hm, if_neg (not_le.2 hr0)]
    unfold updateH1
    simp only
    rw [if_pos hc]
    exact ⟨_, _, rfl⟩
  obtain ⟨h', c, hok⟩ := hok
  refine ⟨h', c, hok, ?_⟩
  have hp := C31_positive k S hsO dt gdot h' c hok
  have hn := C31_update k hd.k1.le S hS.sound hsO dt hdt gdot h' c hok y hy
  have he : 1 / 10 ^ 10 * max (Real.log rO) 1 ≤ densErr hi :=
    mul_le_mul_of_nonneg_left (max_le_max (hlog.trans hBhi) le_rfl) (by norm_num)
  rw [← hrO] at hn
  obtain ⟨hn1, hn2⟩ := abs_le.1 hn
  have hyB : y ≤ B := Real.exp_le_exp.1 (hb2.trans (max_le hrB ((hd.sat σ hγ hσ).trans htB)))
  have hlo := hd.pos
  have hylo : Real.log (2 * lo) ≤ y := by
    rcases hd.low σ hγ hσ with h | h
    · rw [Real.log_le_iff_le_exp (by positivity)]
      exact (le_min (hd.floor.trans (le_max_right _ _)) h).trans hb1
    · have h1 : Real.log (k.hdnInit / 10 ^ 4) ≤ Real.log rO := Real.log_le_log hf0 (le_max_right _ _)
      have h2 : -(dt * (k2 * σ)) ≤ dt * kmRate k.k1 k2 σ y := by
        have : 0 ≤ dt * (k.k1 * Real.exp (-(1 / 2) * y) * σ) :=
          mul_nonneg hdt (mul_nonneg (mul_nonneg hd.k1.le (Real.exp_pos _).le) hγ)
        unfold kmRate
        linarith
      have h3 : dt * (k2 * σ) ≤ dt0 * (k2 * σ) := mul_le_mul_of_nonneg_right hdt0 (mul_nonneg hk2.le hγ)
      linarith
  constructor
  · rw [← Real.log_le_log_iff hlo hp]
    rw [Real.log_mul (by norm_num) hlo.ne'] at hylo
    have := hd.err
    linarith
  · rw [← Real.log_le_iff_le_exp hp]
    linarith

/-! ### The warm range -/

/-- temperatures from `T1` to `T2` and densities from `lo` to `hi` with which every slip system is warm -/
structure WarmRange (k : KMBalD nV) (T1 T2 lo hi : ℝ) : Prop where
  par : ∀ j, KMParams k j
  temp : 0 < T1
  half : k.tKRef ≤ 2 * T1
  dens : 0 < lo
  go : ∀ j, 0 ≤ k.go j
  s : ∀ j, 0 ≤ k.s j
  tauA : 0 ≤ k.tauA
  bar : ∀ j, 0 < kmBar k j lo
  frozen : ∀ j, 35 ≤ kmDG (kmA k j T2) k.p k.q (1 / 10 ^ 8 * k.wrD / kmBar k j lo)
  barD : ∀ j, kmBar k j hi ≤ 10 ^ 60 * k.wrD
  hot : ∀ j, kmA k j T1 ≤ 10 ^ 20
  ratio : kmGamR k hi ≤ 10 ^ 20 * kmGamW k hi

omit [NeZero nV] in
theorem kmBar_mono {k : KMBalD nV} {j : Fin nV} (hs : 0 ≤ k.s j) {ρ ρ' : ℝ} (h : ρ ≤ ρ') :
    kmBar k j ρ ≤ kmBar k j ρ' := by
  unfold kmBar kmStrength
  split_ifs
  · exact le_rfl
  · have := mul_le_mul_of_nonneg_left (Real.sqrt_le_sqrt h) hs
    linarith

theorem kmDG_mono_A {A A' p q t : ℝ} (h : A ≤ A') : kmDG A p q t ≤ kmDG A' p q t := by
  unfold kmDG
  split_ifs with h1
  · exact mul_le_mul_of_nonneg_right h (Real.rpow_nonneg (by linarith) _)
  · exact le_rfl

omit [NeZero nV] in
theorem WarmRange.warm {k : KMBalD nV} {T1 T2 lo hi : ℝ} (h : WarmRange k T1 T2 lo hi) (j : Fin nV) {T ρ : ℝ}
    (hT1 : T1 ≤ T) (hT2 : T ≤ T2) (hl : lo ≤ ρ) (hh : ρ ≤ hi) : Warm k j T ρ := by
  have hp := h.par j
  have hT : 0 < T := h.temp.trans_le hT1
  have hρ : 0 < ρ := h.dens.trans_le hl
  have hbar : 0 < kmBar k j ρ := (h.bar j).trans_le (kmBar_mono (h.s j) hl)
  have hA : kmA k j T2 ≤ kmA k j T := div_le_div_of_nonneg_left hp.c.le hT hT2
  have hA' : kmA k j T ≤ kmA k j T1 := div_le_div_of_nonneg_left hp.c.le h.temp hT1
  have hA0 : 0 < kmA k j T2 := div_pos hp.c (hT.trans_le hT2)
  refine ⟨⟨hp, hT, hρ, ?_, hbar⟩, by linarith [h.half], ?_, (kmBar_mono (h.s j) hh).trans (h.barD j),
    hA'.trans (h.hot j), ?_⟩
  · unfold kmAth kmStrength
    split_ifs
    · exact add_nonneg (h.go j) (mul_nonneg (h.s j) (Real.sqrt_nonneg _))
    · exact h.tauA
  · refine ((h.frozen j).trans (kmDG_anti hA0.le hp.p (one_pos.trans_le hp.q) ?_)).trans (kmDG_mono_A hA)
    exact div_le_div_of_nonneg_left (mul_pos (by norm_num) hp.D).le (h.bar j) (kmBar_mono (h.s j) hl)
  · have h1 : kmGamR k ρ ≤ kmGamR k hi := mul_le_mul_of_nonneg_left hh hp.r.le
    have h2 : kmGamW k hi ≤ kmGamW k ρ :=
      div_le_div_of_nonneg_left hp.w.le (Real.sqrt_pos.2 hρ) (Real.sqrt_le_sqrt hh)
    exact h1.trans (h.ratio.trans (mul_le_mul_of_nonneg_left h2 (by norm_num)))

/-! ### One step -/

/-- the material: stable elasticity and dislocation kinetics on slip systems of any kind -/
structure KMCrystal (M : Material n 1) (k : KMBalD nV) (S : Solver 1) : Prop where
  some : 0 < n
  geom : ∃ m s, M.geom = slipPQ m s ∧ ∀ i, IsSlipSystem (m i) (s i)
  kin : M.kin = k.kin S n
  stable : ∀ E, IsDev E → E ≠ 0 → 0 < ddot E (refStress M.el E)
  cv : M.eos.cvav ≠ 0

/-- inputs of a step at most `dt0` long, with a tolerance that does not ask for more than the jumps of the law allow;
    there is no condition on the deformation rate -/
structure KMLoads (n : ℕ) (k : KMBalD nV) (lo dt0 : ℝ) (inp : Inputs) : Prop where
  dt : 0 < inp.dt
  short : inp.dt ≤ dt0
  vol : 0 < inp.vr 1
  tol : n * (2 / 10 ^ 13) + 1 / 10 ^ 79 * (1 + len inp.w / kmGamR k lo) ≤ inp.tol

/-- a state with density at most `exp B` and with slip rates that densities up to `hi` allow -/
structure KMBand (k : KMBalD nV) (B hi : ℝ) (s : Hist 1 n) : Prop where
  q : s.q ≠ 0
  dens : s.h 0 ≤ Real.exp B
  rates : ∑ i, |s.gdot i| ≤ n * kmGamR k hi

/-- **C83, one step.** A step from such a state at a temperature in the range succeeds, and the result is such a state
    again, with a density bound that is wider only by the solver tolerance. -/
theorem C83_step {M : Material n 1} {k : KMBalD nV} {S : Solver 1} (hS : Finds S) (hM : KMCrystal M k S)
    {T1 T2 lo top hi dt0 : ℝ} (hk : WarmRange k T1 T2 lo hi) (hd : DensRange n k lo top hi dt0) {B : ℝ}
    (hB : Real.log top ≤ B) (hBhi : B + densErr hi ≤ Real.log hi) (X : Ext) (hX : Finds X.solver) (inp : Inputs)
    (hi' : KMLoads n k lo dt0 inp) (mem : Mem 1 n) (hm : KMBand k B hi (histOf mem))
    (hT1 : T1 ≤ Step.tK M inp mem) (hT2 : Step.tK M inp mem ≤ T2)
    (hL : mem.mtan = none ∨ ∀ A B, (X.lup A B).isSome) :
    ∃ mem', getResponseSngl X M inp mem = .ok mem' ∧ KMBand k (B + densErr hi) hi (histOf mem') ∧
      lo ≤ (histOf mem').h 0 := by
  have hδ := densErr_pos hi
  obtain ⟨hU, c, hH, hlow, hhigh⟩ := C83_density hd S hS (histOf mem).h inp.dt hi'.dt.le hi'.short (histOf mem).gdot
    hm.rates B hB (by linarith) hm.dens
  have hpos : 0 < hU 0 := hd.pos.trans_le hlow
  have hhi : 0 < hi := (div_pos hd.hdnInit (by norm_num)).trans_le (hd.ftop.trans hd.top_le)
  have hUhi : hU 0 ≤ hi := by
    refine hhigh.trans ?_
    rw [← Real.le_log_iff_exp_le hhi]
    exact hBhi
  have hw : ∀ i : Fin n, Warm k (k.iVal i) (Step.tK M inp mem) (hU 0) := fun i => hk.warm _ hT1 hT2 hlow hUhi
  have hTne : Step.tK M inp mem ≠ 0 := (hk.temp.trans_le hT1).ne'
  have hV : ∃ v sc, k.getVals (Step.tK M inp mem) hU = .ok (v, sc) := by
    unfold KMBalD.getVals
    simp only
    have hb : ∀ j, 0 < kmBar k j (hU 0) := fun j => (hk.bar j).trans_le (kmBar_mono (hk.s j) hlow)
    rw [if_neg (not_le.2 hpos), if_neg hTne, if_neg, if_neg]
    · exact ⟨_, _, rfl⟩
    · rintro ⟨h1, h2⟩
      have := hb 0
      unfold kmBar at this
      rw [if_pos h1] at this
      exact absurd this (not_lt.2 h2)
    · rintro ⟨h1, j, h2⟩
      have := hb j
      unfold kmBar kmStrength at this
      rw [h1] at this
      simp only [Bool.false_eq_true, if_false] at this
      exact absurd this (not_lt.2 h2)
  obtain ⟨v, sc, hV⟩ := hV
  obtain ⟨mS, sS, hgeom, hms⟩ := hM.geom
  have hset : ∃ P : Updst n, Step.setup M inp mem = .ok (hU, P) := by
    obtain ⟨geom, kin, el, eos⟩ := M
    obtain ⟨-, -, hkin, -, hcv⟩ := hM
    simp only at hkin hcv
    subst hkin
    have := Step.setup_eq_ok (M := ⟨geom, k.kin S n, el, eos⟩) (inp := inp) (m := mem) (hU := hU) (kU := c)
      (v := v) (scale := sc) hm.q hcv hi'.dt.ne' hi'.vol hH hV
    exact ⟨_, this⟩
  obtain ⟨P, hset⟩ := hset
  have hr : 0 < k.gamRo := (hk.par 0).r
  have hγlo : kmGamR k lo ≤ kmGamW k (hU 0) + kmGamR k (hU 0) := by
    have h1 : kmGamR k lo ≤ kmGamR k (hU 0) := mul_le_mul_of_nonneg_left hlow hr.le
    have h2 : 0 ≤ kmGamW k (hU 0) := div_nonneg (hk.par 0).w.le (Real.sqrt_nonneg _)
    linarith
  have hγ0 : 0 < kmGamR k lo := mul_pos hr hd.pos
  obtain ⟨mem', hok⟩ := C83_update M mS sS hgeom hms hM.some k S hM.kin hM.stable inp hi'.dt mem hU P hset hw (by
      refine le_trans ?_ hi'.tol
      have : len inp.w / (kmGamW k (hU 0) + kmGamR k (hU 0)) ≤ len inp.w / kmGamR k lo :=
        div_le_div_of_nonneg_left (Real.sqrt_nonneg _) hγ0 hγlo
      linarith) X hX hL
  refine ⟨mem', hok, ?_⟩
  obtain ⟨s⟩ := getResponseSngl_ok hok
  have hsU : s.hU = hU := by
    have := s.hH
    rw [hM.kin] at this
    exact (Prod.mk.inj (Out.ok.inj (this.symm.trans hH))).1
  have hh : (histOf mem').h = hU := by rw [OkStep.hist_eq s, ← hsU]; rfl
  refine ⟨⟨?_, by rw [hh]; exact hhigh, ?_⟩, by rw [hh]; exact hlow⟩
  · intro h0
    have := (C07_step X M inp mem mem' hok).1
    rw [h0] at this
    simp [dot] at this
  · have hg : ∀ i, |(histOf mem').gdot i| ≤ kmGamR k hi := by
      intro i
      rw [OkStep.hist_eq s]
      show |s.P.gdot (Step.lastX (Step.solve X inp s.P) mem.mtan.isSome) i| ≤ _
      have hPg : ∀ i τ, (s.P.gd i τ).gdot = (k.evalGdot v i τ).gdot := by
        obtain ⟨geom, kin, el, eos⟩ := M
        obtain ⟨-, -, hkin, -, -⟩ := hM
        simp only at hkin
        subst hkin
        have hV' := s.hV
        rw [hsU] at hV'
        have := (Prod.mk.inj (Out.ok.inj (hV'.symm.trans hV))).1
        intro i τ
        rw [s.hP]
        show (k.evalGdot s.v i τ).gdot = _
        rw [this]
      unfold Updst.gdot
      rw [hPg]
      obtain ⟨-, -, hγw, hγr, hgv, hct, -, -⟩ := C64_values k S n _ hU v sc hV
      have hwi := hw i
      have hadm : KMAdm k v (k.iVal i) := by
        refine ⟨by rw [hγw]; exact hwi.gamW, by rw [hγr]; exact hwi.gamR, hwi.par.D, by rw [hct]; exact hwi.A.le,
          hwi.par.p, hwi.q, ?_⟩
        have := hwi.bar
        unfold kmBar at this
        rw [hgv]
        exact this
      refine (C29_drag_bound k v i hadm _).1.trans ?_
      rw [hγr]
      exact mul_le_mul_of_nonneg_left hUhi hr.le
    calc ∑ i, |(histOf mem').gdot i| ≤ ∑ _i : Fin n, kmGamR k hi := Finset.sum_le_sum fun i _ => hg i
      _ = n * kmGamR k hi := by simp

/-! ### Histories -/

omit [NeZero nV] in
theorem KMBand.mono {k : KMBalD nV} {B B' hi : ℝ} {s : Hist 1 n} (h : KMBand k B hi s) (hB : B ≤ B') :
    KMBand k B' hi s :=
  ⟨h.q, h.dens.trans (Real.exp_le_exp.2 hB), h.rates⟩

/-- **C83, histories.** A crystal with dislocation kinetics goes through any history of `K` steps, for as long as the
    temperature of the steps is in the range: no step fails, whatever the deformation rates, spins and volumes.  `next` is
    what the caller does to the memory between the steps, apart from the history variables; it asks for no tangent, or
    the linear solver answers. -/
theorem C83_history {M : Material n 1} {k : KMBalD nV} {S : Solver 1} (hS : Finds S) (hM : KMCrystal M k S)
    {T1 T2 lo top hi dt0 : ℝ} (hk : WarmRange k T1 T2 lo hi) (hd : DensRange n k lo top hi dt0) {K : ℕ}
    (hK : Real.log top + K * densErr hi ≤ Real.log hi) (X : ℕ → Ext) (hX : ∀ j < K, Finds (X j).solver)
    (inp : ℕ → Inputs) (hi' : ∀ j < K, KMLoads n k lo dt0 (inp j))
    (next : ℕ → Mem 1 n → Mem 1 n) (hnext : ∀ j m, (next j m).hist = m.hist) (m0 : Mem 1 n)
    (hL : (m0.mtan = none ∧ ∀ j m, (next j m).mtan = none) ∨ ∀ j < K, ∀ A B, ((X j).lup A B).isSome)
    (hr : KMBand k (Real.log top) hi (histOf m0)) :
    ∃ N ≤ K, ∃ t : Trajectory M N, t.X = X ∧ t.inp = inp ∧ t.m 0 = m0 ∧ (∀ j, t.m (j + 1) = next j (t.m' j)) ∧
      (∀ j < N, lo ≤ (histOf (t.m' j)).h 0 ∧ KMBand k (Real.log hi) hi (histOf (t.m' j))) ∧
      (N = K ∨ Step.tK M (inp N) (t.m N) < T1 ∨ T2 < Step.tK M (inp N) (t.m N)) := by
  classical
  let out : ℕ → Mem 1 n → Mem 1 n := fun j m =>
    match getResponseSngl (X j) M (inp j) m with
    | .ok m' => m'
    | _ => m
  let m : ℕ → Mem 1 n := fun j => Nat.rec m0 (fun j m => next j (out j m)) j
  let Bad : ℕ → Prop := fun j => j = K ∨ Step.tK M (inp j) (m j) < T1 ∨ T2 < Step.tK M (inp j) (m j)
  have hex : ∃ j, Bad j := ⟨K, Or.inl rfl⟩
  let N := Nat.find hex
  have hNK : N ≤ K := Nat.find_min' hex (Or.inl rfl)
  have hgood : ∀ j < N, T1 ≤ Step.tK M (inp j) (m j) ∧ Step.tK M (inp j) (m j) ≤ T2 := by
    intro j hj
    have := Nat.find_min hex hj
    simp only [Bad, not_or, not_lt] at this
    exact this.2
  have hδ := densErr_pos hi
  have hstep : ∀ j < N, KMBand k (Real.log top + j * densErr hi) hi (histOf (m j)) →
      ∃ m', getResponseSngl (X j) M (inp j) (m j) = .ok m' ∧
        KMBand k (Real.log top + (j + 1 : ℕ) * densErr hi) hi (histOf m') ∧ lo ≤ (histOf m').h 0 := by
    intro j hj hb
    have hjK : j < K := hj.trans_le hNK
    have hjR : (j : ℝ) + 1 ≤ K := by exact_mod_cast hjK
    have h0 : 0 ≤ (j : ℝ) * densErr hi := mul_nonneg (Nat.cast_nonneg _) hδ.le
    have e : Real.log top + (j + 1 : ℕ) * densErr hi = Real.log top + j * densErr hi + densErr hi := by
      push_cast; ring
    rw [e]
    refine C83_step hS hM hk hd (by linarith) ?_ (X j) (hX j hjK) (inp j) (hi' j hjK) (m j) hb (hgood j hj).1
      (hgood j hj).2 ?_
    · have := mul_le_mul_of_nonneg_right hjR hδ.le
      linarith
    · rcases hL with hL | hL
      · left
        cases j with
        | zero => exact hL.1
        | succ j => exact hL.2 j _
      · exact Or.inr (hL j hjK)
  have hm1 : ∀ j, histOf (m (j + 1)) = histOf (out j (m j)) := by
    intro j
    show histOf (next j (out j (m j))) = _
    unfold histOf
    rw [hnext]
  have key : ∀ j, j ≤ N → KMBand k (Real.log top + j * densErr hi) hi (histOf (m j)) := by
    intro j
    induction j with
    | zero => intro _; exact hr.mono (by simp)
    | succ j ih =>
      intro hj
      obtain ⟨m', h1, h2, -⟩ := hstep j (by omega) (ih (by omega))
      rw [hm1]
      simp only [out, h1]
      exact h2
  have hok : ∀ j < N, getResponseSngl (X j) M (inp j) (m j) = .ok (out j (m j)) := by
    intro j hj
    obtain ⟨m', h1, -, -⟩ := hstep j hj (key j hj.le)
    simp only [out, h1]
  refine ⟨N, hNK, { X := X, inp := inp, m := m, m' := fun j => out j (m j), ok := hok
                    link := fun j _ => hnext j _ }, rfl, rfl, rfl, fun j => rfl, ?_, Nat.find_spec hex⟩
  intro j hj
  obtain ⟨m', h1, h2, h3⟩ := hstep j hj (key j hj.le)
  have e : out j (m j) = m' := by simp only [out, h1]
  show lo ≤ (histOf (out j (m j))).h 0 ∧ KMBand k (Real.log hi) hi (histOf (out j (m j)))
  rw [e]
  refine ⟨h3, h2.mono ?_⟩
  have hjK : ((j + 1 : ℕ) : ℝ) ≤ K := by exact_mod_cast (hj.trans_le hNK)
  have := mul_le_mul_of_nonneg_right hjK hδ.le
  linarith

/-! ### The parameters of the test suite -/

/-- the hardening parameters of test/setup_kin_KMBalD_*.h -/
structure TestHard (k : KMBalD nV) : Prop where
  k1 : k.k1 = 100
  k2o : k.k2o = 10
  ninv : k.ninv = 5 / 100
  gammaO : k.gammaO = 1 / 10 ^ 6
  hdnInit : k.hdnInit = 25 / 100
  gamRo : k.gamRo = 1000

omit [NeZero nV] in
/-- with the parameters of the test suite and up to 48 slip systems the density stays between 1e-9 and 1e5, in steps of
    any length -/
theorem TestHard.dens {k : KMBalD nV} (h : TestHard k) (hn : n ≤ 48) (dt0 : ℝ) :
    DensRange n k (1 / 10 ^ 9) (10 ^ 4) (10 ^ 5) dt0 := by
  have hrec : ∀ σ, 0 ≤ σ → σ ≤ n * kmGamR k (10 ^ 5) →
      1 ≤ kmRecovery k.k2o k.gammaO k.ninv σ ∧ kmRecovery k.k2o k.gammaO k.ninv σ ≤ 10 ^ 6 := by
    intro σ h0 h1
    rw [h.k2o, h.gammaO, h.ninv]
    have hn' : (n : ℝ) ≤ 48 := by exact_mod_cast hn
    have h2 : σ ≤ 10 ^ 14 := by
      unfold kmGamR at h1
      rw [h.gamRo] at h1
      nlinarith
    unfold kmRecovery
    split_ifs with hσ
    · have hσ0 : 0 < σ := lt_trans (by positivity) hσ
      have e1 : ((1 / 10 : ℝ) ^ (20 : ℕ)) ^ (5 / 100 : ℝ) = 1 / 10 := by
        rw [← Real.rpow_natCast, ← Real.rpow_mul (by norm_num)]; norm_num
      have e2 : ((10 ^ 5 : ℝ) ^ (20 : ℕ)) ^ (5 / 100 : ℝ) = 10 ^ 5 := by
        rw [← Real.rpow_natCast, ← Real.rpow_mul (by norm_num)]; norm_num
      have h3 : (1 / 10 : ℝ) ^ (20 : ℕ) ≤ 1 / 10 ^ 6 / σ := by
        rw [le_div_iff₀ hσ0]
        linarith
      have h4 : 1 / 10 ^ 6 / σ ≤ (10 ^ 5 : ℝ) ^ (20 : ℕ) := by
        rw [div_le_iff₀ hσ0]
        have : (10 ^ 5 : ℝ) ^ 20 * (1 / 10 ^ 90) ≤ (10 ^ 5 : ℝ) ^ 20 * σ :=
          mul_le_mul_of_nonneg_left hσ.le (by positivity)
        refine le_trans ?_ this
        norm_num
      have h5 := Real.rpow_le_rpow (by positivity) h3 (show (0 : ℝ) ≤ 5 / 100 by norm_num)
      have h6 := Real.rpow_le_rpow (by positivity) h4 (show (0 : ℝ) ≤ 5 / 100 by norm_num)
      rw [e1] at h5
      rw [e2] at h6
      constructor <;> linarith
    · norm_num
  refine ⟨by rw [h.k1]; norm_num, by rw [h.k2o]; norm_num, by rw [h.gammaO]; norm_num, by rw [h.hdnInit]; norm_num,
    by norm_num, by rw [h.hdnInit]; norm_num, by rw [h.hdnInit]; norm_num, by norm_num, ?_, ?_, ?_⟩
  · unfold densErr
    have h1 : Real.log (10 ^ 5) ≤ 10 ^ 5 := (Real.log_le_sub_one_of_pos (by norm_num)).trans (by norm_num)
    have h2 : max (Real.log (10 ^ 5)) 1 ≤ 10 ^ 5 := max_le h1 (by norm_num)
    have := Real.log_two_gt_d9
    generalize max (Real.log (10 ^ 5)) 1 = x at h2 ⊢
    linarith
  · intro σ h0 h1
    obtain ⟨h2, -⟩ := hrec σ h0 h1
    rw [h.k1]
    have h3 : 100 / kmRecovery k.k2o k.gammaO k.ninv σ ≤ 100 := div_le_self (by norm_num) h2
    have h4 : 0 ≤ 100 / kmRecovery k.k2o k.gammaO k.ninv σ := by positivity
    nlinarith
  · intro σ h0 h1
    left
    obtain ⟨h2, h3⟩ := hrec σ h0 h1
    rw [h.k1]
    have h4 : 1 / 10 ^ 4 ≤ 100 / kmRecovery k.k2o k.gammaO k.ninv σ := by
      rw [le_div_iff₀ (by linarith)]
      linarith
    nlinarith

theorem steps_test {K : ℕ} (hK : K ≤ 2 * 10 ^ 9) : Real.log (10 ^ 4) + K * densErr (10 ^ 5) ≤ Real.log (10 ^ 5) := by
  have h10 : 1 ≤ Real.log 10 := by
    rw [Real.le_log_iff_exp_le (by norm_num)]
    linarith [Real.exp_one_lt_d9]
  have hKR : (K : ℝ) ≤ 2 * 10 ^ 9 := by exact_mod_cast hK
  unfold densErr
  rw [Real.log_pow, Real.log_pow, max_eq_left (by push_cast; linarith)]
  push_cast
  nlinarith

theorem root_small {t : ℝ} (h0 : 0 < t) (ht : t ≤ 1 / 10 ^ 4) : spow (28 / 100) t ≤ 1 / 10 := by
  rw [spow_of_pos h0]
  have e1 : ((1 / 10 : ℝ) ^ (4 : ℕ)) ^ (1 / 4 : ℝ) = 1 / 10 := by
    rw [← Real.rpow_natCast, ← Real.rpow_mul (by norm_num)]; norm_num
  have h1 : t ^ (28 / 100 : ℝ) ≤ t ^ (1 / 4 : ℝ) :=
    Real.rpow_le_rpow_of_exponent_ge h0 (ht.trans (by norm_num)) (by norm_num)
  have h2 := Real.rpow_le_rpow h0.le (show t ≤ (1 / 10 : ℝ) ^ (4 : ℕ) by norm_num at ht ⊢; exact ht)
    (show (0 : ℝ) ≤ 1 / 4 by norm_num)
  rw [e1] at h2
  linarith

theorem frozen_test {t : ℝ} (h0 : 0 < t) (ht : t ≤ 1 / 10 ^ 4) : 35 ≤ kmDG 50 (28 / 100) (134 / 100) t := by
  have hs := root_small h0 ht
  have hs0 : 0 ≤ spow (28 / 100) t := by rw [spow_of_pos h0]; positivity
  unfold kmDG
  rw [if_pos (by linarith)]
  have h1 : (1 - spow (28 / 100) t) ^ (2 : ℝ) ≤ (1 - spow (28 / 100) t) ^ (134 / 100 : ℝ) :=
    Real.rpow_le_rpow_of_exponent_ge (by linarith) (by linarith) (by norm_num)
  rw [Real.rpow_two] at h1
  nlinarith

/-- densities of the tests -/
theorem sqrt_test : Real.sqrt (10 ^ 5) ≤ 10 ^ 3 := by
  rw [Real.sqrt_le_left (by norm_num)]; norm_num

theorem testKM_warm : WarmRange testKM 150 400 (1 / 10 ^ 9) (10 ^ 5) := by
  have hb : ∀ j, 1 / 10 ^ 4 ≤ kmBar testKM j (1 / 10 ^ 9) := by
    intro j
    have := Real.sqrt_nonneg (1 / 10 ^ 9 : ℝ)
    simp only [kmBar, kmStrength, testKM, Bool.false_eq_true, if_false]
    linarith
  have hs := sqrt_test
  have hs0 : 0 < Real.sqrt (10 ^ 5) := Real.sqrt_pos.2 (by norm_num)
  refine ⟨fun j => ?_, by norm_num, by norm_num [testKM], by norm_num, fun j => by norm_num [testKM],
    fun j => by norm_num [testKM], by norm_num [testKM], fun j => lt_of_lt_of_le (by norm_num) (hb j), ?_, ?_, ?_, ?_⟩
  · constructor <;> norm_num [testKM]
  · intro j
    have hA : kmA testKM j 400 = 50 := by norm_num [kmA, testKM]
    have h0 : 0 < kmBar testKM j (1 / 10 ^ 9) := lt_of_lt_of_le (by norm_num) (hb j)
    rw [hA]
    refine frozen_test (div_pos (by norm_num [testKM]) h0) ?_
    rw [div_le_iff₀ h0]
    have := hb j
    norm_num [testKM] at this ⊢
    linarith
  · intro j
    simp only [kmBar, kmStrength, testKM, Bool.false_eq_true, if_false]
    generalize Real.sqrt (10 ^ 5) = x at hs ⊢
    linarith
  · intro j
    norm_num [kmA, testKM]
  · unfold kmGamR kmGamW
    have : (1 : ℝ) / 10 ^ 3 ≤ 1 / Real.sqrt (10 ^ 5) := one_div_le_one_div_of_le hs0 hs
    have e : testKM.gamWo / Real.sqrt (10 ^ 5) = 20 * (1 / Real.sqrt (10 ^ 5)) := by
      norm_num [testKM]; ring
    rw [e]
    have : testKM.gamRo = 1000 := rfl
    rw [this]
    linarith

theorem testKM_hard : TestHard testKM := ⟨rfl, rfl, rfl, rfl, rfl, rfl⟩

/-- the hexagonal parameters of the tests -/
theorem testKMh_warm : WarmRange testKMh 150 400 (1 / 10 ^ 9) (10 ^ 5) := by
  have hb : ∀ j ρ, kmBar testKMh j ρ = 4 / 1000 := fun j ρ => by simp [kmBar, testKMh]
  have hs := sqrt_test
  have hs0 : 0 < Real.sqrt (10 ^ 5) := Real.sqrt_pos.2 (by norm_num)
  refine ⟨fun j => ?_, by norm_num, by norm_num [testKMh], by norm_num, fun j => by norm_num [testKMh],
    fun j => by norm_num [testKMh], by norm_num [testKMh], fun j => by rw [hb]; norm_num, ?_, ?_, ?_, ?_⟩
  · constructor <;> norm_num [testKMh]
  · intro j
    have hA : kmA testKMh j 400 = 50 := by norm_num [kmA, testKMh]
    rw [hA, hb]
    unfold kmDG
    have h1 : spow testKMh.p (1 / 10 ^ 8 * testKMh.wrD / (4 / 1000)) = 1 / 10 ^ 8 * (2 / 100) / (4 / 1000) := by
      rw [spow_of_pos (by norm_num [testKMh])]
      have : testKMh.p = 1 := rfl
      rw [this, Real.rpow_one]
      rfl
    rw [h1, if_pos (by norm_num)]
    have : testKMh.q = 1 := rfl
    rw [this, Real.rpow_one]
    norm_num
  · intro j
    rw [hb]
    norm_num [testKMh]
  · intro j
    norm_num [kmA, testKMh]
  · unfold kmGamR kmGamW
    have : (1 : ℝ) / 10 ^ 3 ≤ 1 / Real.sqrt (10 ^ 5) := one_div_le_one_div_of_le hs0 hs
    have e : testKMh.gamWo / Real.sqrt (10 ^ 5) = 20 * (1 / Real.sqrt (10 ^ 5)) := by
      norm_num [testKMh]; ring
    rw [e]
    have : testKMh.gamRo = 1000 := rfl
    rw [this]
    linarith

theorem testKMh_hard : TestHard testKMh := ⟨rfl, rfl, rfl, rfl, rfl, rfl⟩

omit [NeZero nV] in
theorem TestHard.loads {k : KMBalD nV} (h : TestHard k) (hn : n ≤ 48) {inp : Inputs} (hdt : 0 < inp.dt)
    (hv : 0 < inp.vr 1) (hw : len inp.w ≤ 10 ^ 60) (htol : 1 / 10 ^ 10 ≤ inp.tol) :
    KMLoads n k (1 / 10 ^ 9) inp.dt inp := by
  refine ⟨hdt, le_rfl, hv, le_trans ?_ htol⟩
  have hnR : (n : ℝ) ≤ 48 := by exact_mod_cast hn
  unfold kmGamR
  rw [h.gamRo]
  generalize len inp.w = x at hw
  have e : x / (1000 * (1 / 10 ^ 9)) = 10 ^ 6 * x := by ring
  rw [e]
  linarith

omit [NeZero nV] in
/-- the initial state of the tests is in the range -/
theorem testMem_band {k : KMBalD nV} (h : TestHard k) (T : ℝ) (sdd : Vec 2) (t : Option (Mat 6 6)) :
    KMBand k (Real.log (10 ^ 4)) (10 ^ 5) (histOf (testMem (fun _ => k.hdnInit) T sdd t : Mem 1 n)) := by
  unfold histOf testMem
  rw [Hist.ofArray_toArray]
  refine ⟨fun h0 => by simpa using congrFun h0 0, ?_, ?_⟩
  · rw [Real.exp_log (by norm_num), h.hdnInit]
    norm_num
  · simp only [Pi.zero_apply, abs_zero, Finset.sum_const_zero]
    unfold kmGamR
    rw [h.gamRo]
    positivity

/-- FCC as in test/test_evptn.cxx with KIN_TYPE 1 -/
noncomputable def warmFcc : Material 12 1 := { testMatB with kin := testKM.kin (idealSolver 1) 12 }

theorem warmFcc_crystal : KMCrystal warmFcc testKM (idealSolver 1) := by
  refine ⟨by norm_num, ⟨fccM, fccS, rfl, fcc_slip⟩, rfl, ?_, by norm_num [warmFcc, testMatB, testEos]⟩
  exact (C47_positive_definite _).2 (((C47_stability_constants 3 1 0 0 1 0).1).2 (by norm_num))

/-- HCP as in test/test_evptn.cxx with KIN_TYPE 2, for any ratio of the axes -/
noncomputable def warmHcp (r : ℝ) : Material 24 1 :=
  { testMatHcp (hcpMx r) (hcpSx r) with kin := testKMh.kin (idealSolver 1) 24 }

theorem warmHcp_crystal (r : ℝ) : KMCrystal (warmHcp r) testKMh (idealSolver 1) := by
  refine ⟨by norm_num, ⟨hcpMx r, hcpSx r, rfl, hcp_slip r⟩, rfl, ?_, by norm_num [warmHcp, testMatHcp, testEos]⟩
  exact (C47_positive_definite _).2 (((C47_stability_constants (1624 / 1000) (920 / 1000) (690 / 1000) (1807 / 1000)
    (467 / 1000) 0).2).2 (by norm_num))

/-- **C83, the crystals of the test suite.** From the state in which the tests start, a crystal with the parameters of the
    test suite goes through any history of up to two thousand million steps of any length and any deformation rate, for
    as long as the temperature is between 150 and 400 K. -/
theorem C83_test {M : Material n 1} {k : KMBalD nV} {S : Solver 1} (hS : Finds S) (hM : KMCrystal M k S)
    (hk : WarmRange k 150 400 (1 / 10 ^ 9) (10 ^ 5)) (hh : TestHard k) (hn : n ≤ 48) {K : ℕ} (hK : K ≤ 2 * 10 ^ 9)
    (X : ℕ → Ext) (hX : ∀ j < K, Finds (X j).solver) (inp : ℕ → Inputs) (hdt : ∀ j < K, 0 < (inp j).dt)
    (hv : ∀ j < K, 0 < (inp j).vr 1) (hw : ∀ j < K, len (inp j).w ≤ 10 ^ 60)
    (htol : ∀ j < K, 1 / 10 ^ 10 ≤ (inp j).tol) (next : ℕ → Mem 1 n → Mem 1 n)
    (hnext : ∀ j m, (next j m).hist = m.hist ∧ (next j m).mtan = none) (T : ℝ) (sdd : Vec 2) :
    ∃ N ≤ K, ∃ tr : Trajectory M N, tr.X = X ∧ tr.inp = inp ∧ tr.m 0 = testMem (fun _ => k.hdnInit) T sdd none ∧
      (∀ j, tr.m (j + 1) = next j (tr.m' j)) ∧
      (∀ j < N, 1 / 10 ^ 9 ≤ (histOf (tr.m' j)).h 0 ∧ (histOf (tr.m' j)).h 0 ≤ 10 ^ 5) ∧
      (N = K ∨ Step.tK M (inp N) (tr.m N) < 150 ∨ 400 < Step.tK M (inp N) (tr.m N)) := by
  obtain ⟨dt0, hdt0⟩ : ∃ dt0, ∀ j < K, (inp j).dt ≤ dt0 := by
    refine ⟨∑ j ∈ Finset.range K, |(inp j).dt|, fun j hj => (le_abs_self _).trans ?_⟩
    exact Finset.single_le_sum (f := fun j => |(inp j).dt|) (fun _ _ => abs_nonneg _) (Finset.mem_range.2 hj)
  obtain ⟨N, h1, tr, h0, h2, h3, h4, h6, h5⟩ := C83_history hS hM hk (hh.dens (n := n) hn dt0) (steps_test hK) X hX inp
    (fun j hj => ⟨hdt j hj, hdt0 j hj, hv j hj, (hh.loads (n := n) hn (hdt j hj) (hv j hj) (hw j hj) (htol j hj)).tol⟩)
    next (fun j m => (hnext j m).1) _ (Or.inl ⟨rfl, fun j m => (hnext j m).2⟩) (testMem_band hh T sdd none)
  refine ⟨N, h1, tr, h0, h2, h3, h4, fun j hj => ⟨(h6 j hj).1, ?_⟩, h5⟩
  have := (h6 j hj).2.dens
  rwa [Real.exp_log (by norm_num)] at this

/-- the cubic crystal of the tests, kept at 300 K by a caller that puts the energy back -/
example (inp : ℕ → Inputs) (hdt : ∀ j, 0 < (inp j).dt) (hv : ∀ j, 0 < (inp j).vr 1) (hv0 : ∀ j, (inp j).vr 0 = 1)
    (hw : ∀ j, len (inp j).w ≤ 10 ^ 60) (htol : ∀ j, 1 / 10 ^ 10 ≤ (inp j).tol) (T : ℝ) (sdd : Vec 2) :
    ∃ tr : Trajectory warmFcc (10 ^ 9), tr.inp = inp ∧ tr.m 0 = testMem (fun _ => testKM.hdnInit) T sdd none := by
  obtain ⟨N, -, tr, -, h1, h2, h3, -, h4⟩ := C83_test (idealSolver_finds 1) warmFcc_crystal testKM_warm testKM_hard
    (by norm_num) (K := 10 ^ 9) (by norm_num) (fun _ => ⟨idealSolver 8, idealLup, 1⟩) (fun _ _ => idealSolver_finds 8) inp
    (fun j _ => hdt j) (fun j _ => hv j) (fun j _ => hw j) (fun j _ => htol j)
    (fun _ m => { m with eInt := 0, mtan := none }) (fun _ _ => ⟨rfl, rfl⟩) T sdd
  have hT : Step.tK warmFcc (inp N) (tr.m N) = 300 := by
    have he : (tr.m N).eInt = 0 := by
      cases N with
      | zero => rw [h2]; rfl
      | succ N => rw [h3]
    unfold Step.tK
    rw [he, hv0]
    norm_num [Eos.evalPT, Eos.tK0, Eos.dtde0, warmFcc, testMatB, testEos]
  rw [hT] at h4
  have hN : N = 10 ^ 9 := by
    rcases h4 with h | h | h
    · exact h
    · norm_num at h
    · norm_num at h
  subst hN
  exact ⟨tr, h1, h2⟩

/-- the hexagonal crystal of the tests: the step of the test succeeds -/
example (r T : ℝ) (sdd : Vec 2) : ∃ m', getResponseSngl ⟨idealSolver 8, idealLup, 1⟩ (warmHcp r) (testInp (1 / 10 ^ 10))
    (testMem (fun _ => testKMh.hdnInit) T sdd none) = .ok m' := by
  have hw : len (testInp (1 / 10 ^ 10)).w ≤ 10 ^ 60 := by
    unfold len
    rw [Real.sqrt_le_left (by norm_num)]
    simp [testInp, dot, Fin.sum_univ_three]
    norm_num
  have hT : Step.tK (warmHcp r) (testInp (1 / 10 ^ 10)) (testMem (fun _ => testKMh.hdnInit) T sdd none) = 300 := by
    unfold Step.tK
    norm_num [Eos.evalPT, Eos.tK0, Eos.dtde0, warmHcp, testMatHcp, testEos, testMem, testInp]
  obtain ⟨m', h, -⟩ := C83_step (idealSolver_finds 1) (warmHcp_crystal r) testKMh_warm
    (testKMh_hard.dens (n := 24) (by norm_num) _) le_rfl (by simpa using steps_test (K := 1) (by norm_num))
    ⟨idealSolver 8, idealLup, 1⟩ (idealSolver_finds 8) _ (testKMh_hard.loads (n := 24) (by norm_num)
      (by norm_num [testInp]) (by norm_num [testInp]) hw (by norm_num [testInp])) _
    (testMem_band testKMh_hard T sdd none) (by rw [hT]; norm_num) (by rw [hT]; norm_num) (Or.inl rfl)
  exact ⟨m', h⟩

end Ecm.Props
