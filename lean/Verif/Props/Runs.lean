/- Property theorems C82: crystals with power-law slip go through whole histories of loading
   (src/ecmech/ECMech_evptn.h:998-1246 getResponseSngl, miniapp/orientation_evolution.cxx:436-549).

   The single steps have solutions (C72), the elastic strain they leave behind is bounded by what was supplied (C69), and
   the strength cannot sink below its first value by more than the solver tolerance allows (C62).  Together: no step of
   a history can fail, and the example program reaches its end. -/
import Verif.Props.Solvable
import Verif.Props.StabilityHex
import Verif.Props.WellDefined
import Verif.Props.Driver

namespace Ecm.Props
open Ecm Spec Classical

variable {n nH : ℕ}

/-- a solver that keeps its contract and finds an acceptable point whenever there is one -/
structure Finds (S : Solver n) : Prop where
  sound : S.Sound
  found : ∀ P tol maxIter x0, (∃ x r J, P x = some (r, J) ∧ len r ≤ tol) → (S P tol maxIter x0).converged = true

theorem idealSolver_finds (n : ℕ) : Finds (idealSolver n) :=
  ⟨idealSolver_sound n, fun _ _ _ _ h => idealSolver_converged h _ _⟩

/-! ### The strength -/

/-- **C82, strength.** The equation for the strength always has a solution, so that the solver finds one. -/
theorem C82_strength (k : Voce) (hk : k.nonlinear = false) (hθ : 0 ≤ k.h0) (hg : 0 < k.gamss0) (S : Solver 1)
    (hS : Finds S) (hsO : Vec 1) (dt : ℝ) (hdt : 0 ≤ dt) (gdot : Vec n) :
    ∃ h' c, k.updateH S hsO dt gdot = .ok (h', c) := by
  have hγ : 0 ≤ ∑ i, |gdot i| := Finset.sum_nonneg fun i _ => abs_nonneg _
  obtain ⟨⟨z, hz, -⟩, -⟩ := C27_solution k.h0 k.tausi
    (voceSat k.taus0 k.gamss0 k.xms (∑ i, |gdot i|)) (∑ i, |gdot i|) (hsO 0) dt hθ hγ hdt
  let P : H1Problem := { law := k.getSdot1 (k.getEvolVals gdot), hO := hsO 0, dt := dt }
  have hx : P.getHn ((z - hsO 0) / P.xScale) = z := by
    unfold H1Problem.getHn
    rw [div_mul_cancel₀ _ P.xScale_pos.ne']
    show hsO 0 + _ = _
    ring
  obtain ⟨f, f', hl, -⟩ := C12_voce_linear k hk (k.getEvolVals gdot)
  have hf : f z = voceRate k.h0 k.tausi (voceSat k.taus0 k.gamss0 k.xms (∑ i, |gdot i|)) (∑ i, |gdot i|) z := by
    have := C27_law k hk gdot z
    rw [hl] at this
    simpa using this
  obtain ⟨J, hJ⟩ := (C13_hardening_single P ((z - hsO 0) / P.xScale) (f z) (f' z) (by rw [hx]; exact hl z)).2
    (by rw [hx, hf]; exact hz)
  have hc : (S P.problem (1 / 10 ^ 10) 100 fun _ => 0).converged = true := by
    refine hS.found _ _ _ _ ⟨fun _ => (z - hsO 0) / P.xScale, fun _ => 0, fun _ _ => J, ?_, ?_⟩
    · unfold H1Problem.problem
      rw [hJ]; rfl
    · show Real.sqrt _ ≤ _
      simp [dot]
  unfold Voce.updateH
  rw [if_neg (not_le.2 hg)]
  unfold updateH1
  simp only
  rw [if_pos hc]
  exact ⟨_, _, rfl⟩

/-- the rate given by the code never exceeds 1e60 reference rates -/
theorem voce_rate_le (k : Voce) (hm : 0 < k.xm) (hw : 0 < k.gamW) {g : ℝ} (hg : 0 < g) (τ : ℝ) :
    |(k.evalGdot g τ).gdot| ≤ 10 ^ 60 * k.gamW := by
  have e2 : k.tMax = (10 ^ 60 : ℝ) ^ k.xm := by unfold Voce.tMax gamRatioOvf; norm_num
  have hs : |(if 0 < τ then (1 : ℝ) else -1)| = 1 := by split_ifs <;> simp
  rcases le_or_gt (|τ| / g) k.tMin with h | h
  · rw [k.evalGdot_low hg h]
    simp only [abs_zero]
    positivity
  · rcases le_or_gt (|τ| / g) k.tMax with h' | h'
    · rw [k.gdot_mid hg h h', abs_mul, hs, one_mul]
      have h0 : 0 ≤ |τ| / g := by positivity
      have := Real.rpow_le_rpow h0 h' (k.xnn_pos hm).le
      rw [k.tMax_rpow hm] at this
      rw [abs_of_nonneg (mul_nonneg hw.le (Real.rpow_nonneg h0 _)), mul_comm]
      exact mul_le_mul_of_nonneg_right this hw.le
    · rw [C24_overflow k hm hw.le g τ hg (by rw [← e2]; exact h'), abs_mul, hs, one_mul, abs_of_pos (by positivity)]
      have : (10 : ℝ) ^ 45 ≤ 10 ^ 60 := by norm_num
      exact mul_le_mul_of_nonneg_right this hw.le

/-! ### One step -/

/-- **C82, update.** As C72, for any solver that finds acceptable points, and also with the tangent, as long as the
    linear solver answers. -/
theorem C82_update (M : Material n 1) (m s : Fin n → Vec 3) (hgeom : M.geom = slipPQ m s)
    (hms : ∀ i, IsSlipSystem (m i) (s i)) (k : Voce) (S : Solver 1) (hkin : M.kin = k.kin S n)
    (hm : 0 < k.xm) (hw : 0 < k.gamW) (κ : ℝ)
    (hst : ∀ E, IsDev E → E ≠ 0 → 0 < ddot E (refStress M.el E))
    (hκ : ∀ E, IsDev E → ddot E (refStress M.el E) ≤ κ * ddot E E)
    (inp : Inputs) (hdt : 0 < inp.dt) (hd : IsDev (devOfSvecP inp.d)) (mem : Mem 1 n)
    (hU : Vec 1) (P : Updst n) (hset : Step.setup M inp mem = .ok (hU, P))
    (F : Vec 5) (hF : ∀ i : Fin 5, P.elastNEtoT F i.castSucc = 0)
    (hs : (energyNorm M.el (vecdToSymm (histOf mem).e - vecdToSymm F)
        + inp.dt * (inp.vr 1) ^ (1 / 3 : ℝ) * (Real.sqrt κ * frob (devOfSvecP inp.d))) ^ 2
      ≤ 4 * (inp.dt * ((inp.vr 1) ^ (1 / 3 : ℝ)) ^ 2) * ((10 ^ 60 : ℝ) ^ k.xm * hU 0 * (10 ^ 60 * k.gamW)))
    (htol : n / 10 ^ 51 + 1 / 10 ^ 79 * (1 + len inp.w / k.gamW) ≤ inp.tol)
    (X : Ext) (hX : Finds X.solver) (hL : mem.mtan = none ∨ ∀ A B, (X.lup A B).isSome) :
    ∃ mem', getResponseSngl X M inp mem = .ok mem' := by
  obtain ⟨kU, v, sc, hq, -, -, hv, -, hV, hP⟩ := Step.setup_ok hset
  have hP0 := hP
  have hgV : ∃ hg : 0 < hU 0, (∀ i τ, (P.gd i τ).gdot = (k.evalGdot (hU 0) τ).gdot) ∧
      P.adotsRef = k.gamW := by
    obtain ⟨geom, kin, el, eos⟩ := M
    simp only at hkin
    subst hkin
    simp only [Voce.kin] at hV
    split_ifs at hV with hg
    cases hV
    refine ⟨hg, ?_, ?_⟩
    · intro i τ; rw [hP]; rfl
    · rw [hP]; rfl
  obtain ⟨hg, hgd, ha⟩ := hgV
  have hK := (C47_positive_definite M.el).1 hst
  obtain ⟨x, hx⟩ := C72_voce P m s (by rw [hP]; exact hgeom) hms
    (by rw [dot_self_quat, hP]; exact qn_quatN hq) (by rw [hP]; exact hdt) (by rw [hP]; exact hv) κ
    (by rw [hP]; exact hst) (by rw [hP]; exact hκ) k hm hw (hU 0) hg hgd ha F hF (by
      rw [frob_eq hd] at hs
      rw [hP]; exact hs)
  have hwS : P.wSm = inp.w := by rw [hP]
  rw [hwS] at hx
  have hc : (Step.solve X inp P).converged = true :=
    hX.found _ _ _ _ ⟨x, P.resid x, P.jac x, rfl, hx.trans htol⟩
  have ht : ∃ t, Step.tangent X (Step.eosUpdate M inp mem).bulkNew P (Step.solve X inp P).x mem.mtan.isSome
      = some t := by
    unfold Step.tangent
    rcases hL with hL | hL
    · rw [hL]; exact ⟨none, rfl⟩
    · split_ifs
      · unfold Updst.mtan
        obtain ⟨y, hy⟩ := Option.isSome_iff_exists.1 (hL (P.jacU (Step.solve X inp P).x)
          (P.pfracRhsT (Step.solve X inp P).x))
        rw [hy]
        exact ⟨_, rfl⟩
      · exact ⟨none, rfl⟩
  obtain ⟨t, ht⟩ := ht
  unfold getResponseSngl
  rw [hset]
  simp only [Step.run, hc, ht, getGmod_of_stable hK]
  exact ⟨_, rfl⟩

/-- power-law parameters with which every update is defined; `H` bounds the saturation strength over all rates the code
    can give -/
structure Steady (n : ℕ) (k : Voce) (H : ℝ) : Prop where
  linear : k.nonlinear = false
  xm : 0 < k.xm
  gamW : 0 < k.gamW
  h0 : 0 ≤ k.h0
  gamss0 : 0 < k.gamss0
  one : 1 ≤ H
  sat : ∀ γ, 0 ≤ γ → γ ≤ n * (10 ^ 60 * k.gamW) → voceSat k.taus0 k.gamss0 k.xms γ ≤ H

/-- a state with strength between `l` and `u` and elastic strain of size at most `E` -/
structure InRange (k : Voce) (el : Elast) (l u E : ℝ) (s : Hist 1 n) : Prop where
  q : s.q ≠ 0
  low : l ≤ s.h 0
  high : s.h 0 ≤ u
  strain : energyNorm el (vecdToSymm s.e) ≤ E
  rates : ∑ i, |s.gdot i| ≤ n * (10 ^ 60 * k.gamW)

/-- what the imposed deformation alone supplies in a step -/
noncomputable def imposed (κ : ℝ) (inp : Inputs) : ℝ :=
  inp.dt * (inp.vr 1) ^ (1 / 3 : ℝ) * (Real.sqrt κ * frob (devOfSvecP inp.d))

/-- inputs of a step from a state with elastic strain of size `E`, to a state with strength at least `l`: the step is
    not so short that the imposed strain would need rates above 1e60 reference rates -/
structure Loads (n : ℕ) (k : Voce) (κ l E : ℝ) (inp : Inputs) : Prop where
  dt : 0 < inp.dt
  vol : 0 < inp.vr 1
  dev : IsDev (devOfSvecP inp.d)
  reach : (E + imposed κ inp) ^ 2
    ≤ 4 * (inp.dt * ((inp.vr 1) ^ (1 / 3 : ℝ)) ^ 2) * ((10 ^ 60 : ℝ) ^ k.xm * l * (10 ^ 60 * k.gamW))
  tol : n / 10 ^ 51 + 1 / 10 ^ 79 * (1 + len inp.w / k.gamW) ≤ inp.tol

/-- the material: cubic stable elasticity and power-law slip -/
structure PowerCubic (M : Material n 1) (k : Voce) (S : Solver 1) (c11 c12 c44 : ℝ) : Prop where
  geom : ∃ m s, M.geom = slipPQ m s ∧ ∀ i, IsSlipSystem (m i) (s i)
  kin : M.kin = k.kin S n
  el : M.el = .cubic c11 c12 c44
  stable : c12 < c11 ∧ 0 < c44
  cv : M.eos.cvav ≠ 0

/-- the largest shear stiffness -/
noncomputable def stiff (c11 c12 c44 : ℝ) : ℝ := max (c11 - c12) (2 * c44)

theorem cubic_stiff {c11 c12 c44 : ℝ} (E : T3) (hE : IsDev E) :
    ddot E (refStress (.cubic c11 c12 c44) E) ≤ stiff c11 c12 c44 * ddot E E := by
  have e := vecdToSymm_symmToVecd E hE
  rw [← e]
  generalize symmToVecd E = v
  have h1 : c11 - c12 ≤ stiff c11 c12 c44 := le_max_left _ _
  have h2 : 2 * c44 ≤ stiff c11 c12 c44 := le_max_right _ _
  generalize stiff c11 c12 c44 = κ at h1 h2
  have e1 : ddot (vecdToSymm v) (refStress (.cubic c11 c12 c44) (vecdToSymm v))
      = (c11 - c12) * (v 0 ^ 2 + v 1 ^ 2) + 2 * c44 * (v 2 ^ 2 + v 3 ^ 2 + v 4 ^ 2) := by
    simp only [ddot, Fin.sum_univ_three, refStress, cubicStress, vecdToSymm, ofSvecP,
      vecdsToSvecP, Matrix.of_apply, Matrix.cons_val]
    sqr_ring
  have e2 : ddot (vecdToSymm v) (vecdToSymm v)
      = (v 0 ^ 2 + v 1 ^ 2) + (v 2 ^ 2 + v 3 ^ 2 + v 4 ^ 2) := by
    simp only [ddot, Fin.sum_univ_three, vecdToSymm, ofSvecP,
      vecdsToSvecP, Matrix.of_apply, Matrix.cons_val]
    sqr_ring
  rw [e1, e2]
  nlinarith [sq_nonneg (v 0), sq_nonneg (v 1), sq_nonneg (v 2), sq_nonneg (v 3), sq_nonneg (v 4)]

/-- **C82, one step.** A step from a state in range succeeds, and its result is in a range that is wider only by the
    solver tolerance and the supplied strain. -/
theorem C82_step {M : Material n 1} {k : Voce} {S : Solver 1} (hS : Finds S) {c11 c12 c44 : ℝ}
    (hM : PowerCubic M k S c11 c12 c44) {H : ℝ} (hk : Steady n k H) {l u E : ℝ} (hl : 0 < l - 1 / 10 ^ 10 * u)
    (hlt : l ≤ k.tausi) (hu : H ≤ u) (X : Ext) (hX : Finds X.solver) (inp : Inputs)
    (hi : Loads n k (stiff c11 c12 c44) (l - 1 / 10 ^ 10 * u) E inp) (mem : Mem 1 n)
    (hm : InRange k M.el l u E (histOf mem)) (hL : mem.mtan = none ∨ ∀ A B, (X.lup A B).isSome) :
    ∃ mem', getResponseSngl X M inp mem = .ok mem' ∧
      InRange k M.el (l - 1 / 10 ^ 10 * u) (u + 1 / 10 ^ 10 * u)
        (E + stepSupply (stiff c11 c12 c44) k.gamW inp) (histOf mem') := by
  have h1u : 1 ≤ u := hk.one.trans hu
  obtain ⟨hU, c, hH⟩ := C82_strength k hk.linear hk.h0 hk.gamss0 S hS (histOf mem).h inp.dt hi.dt.le (histOf mem).gdot
  have hmax : max ((histOf mem).h 0) 1 ≤ u := max_le hm.high h1u
  have hlow : l - 1 / 10 ^ 10 * u ≤ hU 0 := by
    have h1 := C62_voce_strength k hk.linear hk.h0 S hS.sound _ _ hi.dt.le _ _ _ hH
    have h2 : l ≤ min ((histOf mem).h 0) k.tausi := le_min hm.low hlt
    nlinarith
  have hhigh : hU 0 ≤ u + 1 / 10 ^ 10 * u := by
    obtain ⟨z, hz, hn⟩ := C27_update k hk.linear hk.h0 S hS.sound _ _ hi.dt.le _ _ _ hH
    have hγ : 0 ≤ ∑ i, |(histOf mem).gdot i| := Finset.sum_nonneg fun i _ => abs_nonneg _
    obtain ⟨-, h2, -⟩ := (C27_solution k.h0 k.tausi _ _ ((histOf mem).h 0) inp.dt hk.h0 hγ hi.dt.le).2 z hz
    have h3 : z ≤ u := h2.trans (max_le hm.high ((hk.sat _ hγ hm.rates).trans hu))
    have h4 := (abs_le.1 hn).2
    have h5 : (1 : ℝ) / 10 ^ 10 * max ((histOf mem).h 0) 1 ≤ 1 / 10 ^ 10 * u :=
      mul_le_mul_of_nonneg_left hmax (by norm_num)
    linarith
  have hpos : 0 < hU 0 := hl.trans_le hlow
  obtain ⟨mS, sS, hgeom, hms⟩ := hM.geom
  have hst : ∀ E, IsDev E → E ≠ 0 → 0 < ddot E (refStress M.el E) := by
    rw [hM.el]
    exact (C47_positive_definite _).2 (((C47_stability_constants c11 c12 0 0 c44 0).1).2 hM.stable)
  have hκ : ∀ E, IsDev E → ddot E (refStress M.el E) ≤ stiff c11 c12 c44 * ddot E E := by
    rw [hM.el]; exact fun E hE => cubic_stiff E hE
  have hset : ∃ P : Updst n, Step.setup M inp mem = .ok (hU, P) ∧ P.el = M.el := by
    obtain ⟨geom, kin, el, eos⟩ := M
    obtain ⟨-, hkin, -, -, hcv⟩ := hM
    simp only at hkin hcv
    subst hkin
    have := Step.setup_eq_ok (M := ⟨geom, k.kin S n, el, eos⟩) (inp := inp) (m := mem) (hU := hU) (kU := c)
      (v := hU 0) (scale := hU 0) hm.q hcv hi.dt.ne' hi.vol hH
      (by simp only [Voce.kin]; rw [if_pos hpos])
    exact ⟨_, this, rfl⟩
  obtain ⟨P, hset, hPel⟩ := hset
  have hz : vecdToSymm (0 : Vec 5) = 0 := by
    ext i j; fin_cases i <;> fin_cases j <;> simp [vecdToSymm, ofSvecP, vecdsToSvecP]
  have hE0 : 0 ≤ energyNorm M.el (vecdToSymm (histOf mem).e) := Real.sqrt_nonneg _
  have hI0 : 0 ≤ imposed (stiff c11 c12 c44) inp :=
    mul_nonneg (mul_nonneg hi.dt.le (Real.rpow_nonneg hi.vol.le _)) (mul_nonneg (Real.sqrt_nonneg _) (Real.sqrt_nonneg _))
  obtain ⟨mem', hok⟩ := C82_update M mS sS hgeom hms k S hM.kin hk.xm hk.gamW (stiff c11 c12 c44) hst hκ inp hi.dt
    hi.dev mem hU P hset 0 (C72_cubic P c11 c12 c44 (hPel.trans hM.el)) (by
      rw [hz, sub_zero]
      refine le_trans (pow_le_pow_left₀ (add_nonneg hE0 hI0) (add_le_add_left hm.strain _) 2) (hi.reach.trans ?_)
      refine mul_le_mul_of_nonneg_left ?_ ?_
      · refine mul_le_mul_of_nonneg_right ?_ (mul_nonneg (by positivity) hk.gamW.le)
        exact mul_le_mul_of_nonneg_left hlow (Real.rpow_nonneg (by positivity) _)
      · exact mul_nonneg (by norm_num) (mul_nonneg hi.dt.le (sq_nonneg _))) hi.tol X hX hL
  refine ⟨mem', hok, ?_⟩
  obtain ⟨s⟩ := getResponseSngl_ok hok
  have hsU : s.hU = hU := by
    have := s.hH
    rw [hM.kin] at this
    exact (Prod.mk.inj (Out.ok.inj (this.symm.trans hH))).1
  have hh : (histOf mem').h = hU := by rw [OkStep.hist_eq s, ← hsU]; rfl
  refine ⟨?_, by rw [hh]; exact hlow, by rw [hh]; exact hhigh, ?_, ?_⟩
  · intro h0
    have := (C07_step X M inp mem mem' hok).1
    rw [h0] at this
    simp [dot] at this
  · have hK : DissipativeAt M.kin mem'.tkelv := by
      rw [hM.kin]
      intro p h v sc hv i τ
      simp only [Voce.kin] at hv
      split_ifs at hv with h0
      cases hv
      exact (C24_sign k hk.xm hk.gamW _ τ h0).2.2
    have := C69_step X hX.sound M c11 c12 c44 hM.el hM.stable k.gamW (by rw [hM.kin]; exact C69_voce k S hk.gamW) inp
      hi.dt hi.dev mem mem' hok hK
    have := hm.strain
    unfold stiff
    linarith
  · have hg : ∀ i, |(histOf mem').gdot i| ≤ 10 ^ 60 * k.gamW := by
      intro i
      rw [OkStep.hist_eq s]
      show |s.P.gdot (Step.lastX (Step.solve X inp s.P) mem.mtan.isSome) i| ≤ _
      have hPg : ∀ i τ, (s.P.gd i τ).gdot = (k.evalGdot (hU 0) τ).gdot := by
        obtain ⟨geom, kin, el, eos⟩ := M
        obtain ⟨-, hkin, -, -, -⟩ := hM
        simp only at hkin
        subst hkin
        have hV := s.hV
        simp only [Voce.kin] at hV
        rw [hsU, if_pos hpos] at hV
        intro i τ
        rw [s.hP]
        show (k.evalGdot s.v τ).gdot = _
        rw [← (Prod.mk.inj (Out.ok.inj hV)).1]
      unfold Updst.gdot
      rw [hPg]
      exact voce_rate_le k hk.xm hk.gamW hpos _
    calc ∑ i, |(histOf mem').gdot i| ≤ ∑ _i : Fin n, 10 ^ 60 * k.gamW := Finset.sum_le_sum fun i _ => hg i
      _ = n * (10 ^ 60 * k.gamW) := by simp

/-! ### Histories -/

theorem InRange.mono {k : Voce} {el : Elast} {l u E l' u' E' : ℝ} {s : Hist 1 n} (h : InRange k el l u E s)
    (hl : l' ≤ l) (hu : u ≤ u') (hE : E ≤ E') : InRange k el l' u' E' s :=
  ⟨h.q, hl.trans h.low, h.high.trans hu, h.strain.trans hE, h.rates⟩

theorem Loads.mono {k : Voce} {κ l E l' E' : ℝ} {inp : Inputs} (hw : 0 < k.gamW) (h : Loads n k κ l E inp)
    (hl : l ≤ l') (hE : E' ≤ E) (h0 : 0 ≤ E') : Loads n k κ l' E' inp := by
  refine ⟨h.dt, h.vol, h.dev, ?_, h.tol⟩
  have hI0 : 0 ≤ imposed κ inp :=
    mul_nonneg (mul_nonneg h.dt.le (Real.rpow_nonneg h.vol.le _)) (mul_nonneg (Real.sqrt_nonneg _) (Real.sqrt_nonneg _))
  refine le_trans (pow_le_pow_left₀ (add_nonneg h0 hI0) (add_le_add_left hE _) 2) (h.reach.trans ?_)
  refine mul_le_mul_of_nonneg_left ?_ (mul_nonneg (by norm_num) (mul_nonneg h.dt.le (sq_nonneg _)))
  refine mul_le_mul_of_nonneg_right ?_ (mul_nonneg (by positivity) hw.le)
  exact mul_le_mul_of_nonneg_left hl (Real.rpow_nonneg (by positivity) _)

/-- the strengths possible after `k` steps -/
noncomputable def lowAt (hm H : ℝ) (k : ℕ) : ℝ := hm - 2 / 10 ^ 10 * H * k
/-- the strengths possible after `k` steps -/
noncomputable def highAt (H : ℝ) (k : ℕ) : ℝ := H + 2 / 10 ^ 10 * H * k

/-- **C82, one step of a long history**: the step number `j` of at most a thousand million -/
theorem C82_next {M : Material n 1} {k : Voce} {S : Solver 1} (hS : Finds S) {c11 c12 c44 : ℝ}
    (hM : PowerCubic M k S c11 c12 c44) {H hm : ℝ} (hk : Steady n k H) (hm0 : 0 < hm) (hmt : hm ≤ k.tausi) {K : ℕ}
    (hK : K ≤ 10 ^ 9) (hKm : K * (4 / 10 ^ 10 * H) ≤ hm) (j : ℕ) (hj : j < K) (E : ℝ) (X : Ext) (hX : Finds X.solver)
    (inp : Inputs) (hi : Loads n k (stiff c11 c12 c44) (hm / 2) E inp) (mem : Mem 1 n)
    (hr : InRange k M.el (lowAt hm H j) (highAt H j) E (histOf mem))
    (hL : mem.mtan = none ∨ ∀ A B, (X.lup A B).isSome) :
    ∃ mem', getResponseSngl X M inp mem = .ok mem' ∧ InRange k M.el (lowAt hm H (j + 1)) (highAt H (j + 1))
        (E + stepSupply (stiff c11 c12 c44) k.gamW inp) (histOf mem') := by
  have hH := hk.one
  have hjR : (j : ℝ) + 1 ≤ K := by exact_mod_cast hj
  have hKR : (K : ℝ) ≤ 10 ^ 9 := by exact_mod_cast hK
  have hj0 : (0 : ℝ) ≤ j := Nat.cast_nonneg j
  have hjH : (j : ℝ) * H ≤ 10 ^ 9 * H := mul_le_mul_of_nonneg_right (by linarith) (by linarith)
  have hu2 : highAt H j ≤ 2 * H := by unfold highAt; nlinarith
  have huH : H ≤ highAt H j := by unfold highAt; nlinarith [mul_nonneg hj0 (le_trans zero_le_one hH)]
  have hl1 : lowAt hm H (j + 1) ≤ lowAt hm H j - 1 / 10 ^ 10 * highAt H j := by
    unfold lowAt; push_cast; linarith
  have hu1 : highAt H j + 1 / 10 ^ 10 * highAt H j ≤ highAt H (j + 1) := by
    have : (1 : ℝ) / 10 ^ 10 * highAt H j ≤ 1 / 10 ^ 10 * (2 * H) := mul_le_mul_of_nonneg_left hu2 (by norm_num)
    unfold highAt at this ⊢; push_cast; linarith
  have hlm : hm / 2 ≤ lowAt hm H (j + 1) := by
    have : ((j : ℝ) + 1) * (4 / 10 ^ 10 * H) ≤ K * (4 / 10 ^ 10 * H) :=
      mul_le_mul_of_nonneg_right hjR (by nlinarith)
    unfold lowAt; push_cast; linarith
  have hlt : lowAt hm H j ≤ k.tausi := by
    unfold lowAt
    have : 0 ≤ 2 / 10 ^ 10 * H * (j : ℝ) := by positivity
    linarith
  have hE0 : 0 ≤ E := (Real.sqrt_nonneg _).trans hr.strain
  obtain ⟨mem', h1, h2⟩ := C82_step hS hM hk (l := lowAt hm H j) (u := highAt H j) (E := E) (by linarith) hlt huH X hX
    inp (hi.mono hk.gamW (hlm.trans hl1) le_rfl hE0) mem hr hL
  exact ⟨mem', h1, h2.mono hl1 hu1 le_rfl⟩

/-- **C82, histories.** A cubic crystal with power-law slip goes through any history of at most a thousand million steps:
    no step fails, whatever the deformation rates, spins, volumes and step lengths, as long as no step is so short that
    the imposed strain would need rates beyond 1e60 reference rates.  `next` is what the caller does to the memory
    between the steps, apart from the history variables. -/
theorem C82_history {M : Material n 1} {k : Voce} {S : Solver 1} (hS : Finds S) {c11 c12 c44 : ℝ}
    (hM : PowerCubic M k S c11 c12 c44) {H hm : ℝ} (hk : Steady n k H) (hm0 : 0 < hm) (hmt : hm ≤ k.tausi) {K : ℕ}
    (hK : K ≤ 10 ^ 9) (hKm : K * (4 / 10 ^ 10 * H) ≤ hm) (X : ℕ → Ext) (hX : ∀ j < K, Finds (X j).solver)
    (hL : ∀ j < K, ∀ A B, ((X j).lup A B).isSome) (inp : ℕ → Inputs) (E : ℝ)
    (hi : ∀ j < K, Loads n k (stiff c11 c12 c44) (hm / 2)
      (E + ∑ i ∈ Finset.range j, stepSupply (stiff c11 c12 c44) k.gamW (inp i)) (inp j))
    (next : ℕ → Mem 1 n → Mem 1 n) (hnext : ∀ j m, (next j m).hist = m.hist) (m0 : Mem 1 n)
    (hr : InRange k M.el hm H E (histOf m0)) :
    ∃ t : Trajectory M K, t.X = X ∧ t.inp = inp ∧ t.m 0 = m0 ∧ (∀ j, t.m (j + 1) = next j (t.m' j)) ∧
      ∀ j < K, InRange k M.el (hm / 2) (2 * H) (E + ∑ i ∈ Finset.range (j + 1),
        stepSupply (stiff c11 c12 c44) k.gamW (inp i)) (histOf (t.m' j)) := by
  let out : ℕ → Mem 1 n → Mem 1 n := fun j m =>
    match getResponseSngl (X j) M (inp j) m with
    | .ok m' => m'
    | _ => m
  let m : ℕ → Mem 1 n := fun j => Nat.rec m0 (fun j m => next j (out j m)) j
  have key : ∀ j, j ≤ K → InRange k M.el (lowAt hm H j) (highAt H j) (E + ∑ i ∈ Finset.range j,
      stepSupply (stiff c11 c12 c44) k.gamW (inp i)) (histOf (m j)) := by
    intro j
    induction j with
    | zero =>
      intro _
      exact hr.mono (by unfold lowAt; simp) (by unfold highAt; simp) (by simp)
    | succ j ih =>
      intro hj
      obtain ⟨m', h1, h2⟩ := C82_next hS hM hk hm0 hmt hK hKm j (by omega) _ (X j) (hX j (by omega)) (inp j)
        (hi j (by omega)) (m j) (ih (by omega)) (Or.inr (hL j (by omega)))
      have e : histOf (m (j + 1)) = histOf m' := by
        show histOf (next j (out j (m j))) = _
        unfold histOf
        rw [hnext]
        show Hist.ofArray (out j (m j)).hist = _
        simp only [out, h1]
      rw [e, Finset.sum_range_succ, ← add_assoc]
      exact h2
  have hstep : ∀ j < K, getResponseSngl (X j) M (inp j) (m j) = .ok (out j (m j)) := by
    intro j hj
    obtain ⟨m', h1, -⟩ := C82_next hS hM hk hm0 hmt hK hKm j hj _ (X j) (hX j hj) (inp j)
        (hi j hj) (m j) (key j hj.le) (Or.inr (hL j hj))
    simp only [out, h1]
  refine ⟨{ X := X, inp := inp, m := m, m' := fun j => out j (m j), ok := hstep
            link := fun j _ => hnext j _ }, rfl, rfl, rfl, fun j => rfl, ?_⟩
  intro j hj
  have h := key (j + 1) hj
  have e : histOf (m (j + 1)) = histOf (out j (m j)) := by
    show histOf (next j (out j (m j))) = _
    unfold histOf
    rw [hnext]
  rw [e] at h
  have hH := hk.one
  have hjR : (j : ℝ) + 1 ≤ K := by exact_mod_cast hj
  have hKR : (K : ℝ) ≤ 10 ^ 9 := by exact_mod_cast hK
  have hj0 : (0 : ℝ) ≤ j := Nat.cast_nonneg j
  refine h.mono ?_ ?_ le_rfl
  · have : ((j : ℝ) + 1) * (4 / 10 ^ 10 * H) ≤ K * (4 / 10 ^ 10 * H) :=
      mul_le_mul_of_nonneg_right hjR (by nlinarith)
    unfold lowAt; push_cast; linarith
  · have hjH : ((j : ℝ) + 1) * H ≤ 10 ^ 9 * H := mul_le_mul_of_nonneg_right (by linarith) (by linarith)
    unfold highAt; push_cast; nlinarith

/-! ### The example program -/

/-- the inputs of every step of the example program -/
noncomputable def drvInp (tol : ℝ) : Inputs where
  dt := 1 / 4000
  tol := tol
  d := ![-1 / 2, -1 / 2, 1, 0, 0, 0, 0]
  w := 0
  vr := ![1, 1, 0, 0]

theorem drvSetup_driver (stress : Vec 6) (eng : ℝ) :
    drvSetup (1 / 4000) !![-1 / 2, 0, 0; 0, -1 / 2, 0; 0, 0, 1] stress 1 eng = .ok
      { d := ![-1 / 2, -1 / 2, 1, 0, 0, 0, 0], w := 0, vr := ![1, 1, 0, 0], stress := drvStress stress, eng := eng
        temp := 300, mtan := 0 } := by
  have e00 : (!![-1 / 2, 0, 0; 0, -1 / 2, 0; 0, 0, 1] : Mat 3 3) 0 0 = -1 / 2 := rfl
  have e01 : (!![-1 / 2, 0, 0; 0, -1 / 2, 0; 0, 0, 1] : Mat 3 3) 0 1 = 0 := rfl
  have e02 : (!![-1 / 2, 0, 0; 0, -1 / 2, 0; 0, 0, 1] : Mat 3 3) 0 2 = 0 := rfl
  have e10 : (!![-1 / 2, 0, 0; 0, -1 / 2, 0; 0, 0, 1] : Mat 3 3) 1 0 = 0 := rfl
  have e11 : (!![-1 / 2, 0, 0; 0, -1 / 2, 0; 0, 0, 1] : Mat 3 3) 1 1 = -1 / 2 := rfl
  have e12 : (!![-1 / 2, 0, 0; 0, -1 / 2, 0; 0, 0, 1] : Mat 3 3) 1 2 = 0 := rfl
  have e20 : (!![-1 / 2, 0, 0; 0, -1 / 2, 0; 0, 0, 1] : Mat 3 3) 2 0 = 0 := rfl
  have e21 : (!![-1 / 2, 0, 0; 0, -1 / 2, 0; 0, 0, 1] : Mat 3 3) 2 1 = 0 := rfl
  have e22 : (!![-1 / 2, 0, 0; 0, -1 / 2, 0; 0, 0, 1] : Mat 3 3) 2 2 = 1 := rfl
  have hd : drvRate !![-1 / 2, 0, 0; 0, -1 / 2, 0; 0, 0, 1] = ![-1 / 2, -1 / 2, 1, 0, 0, 0, 0] := by
    unfold drvRate
    rw [e00, e11, e22, e01, e10, e02, e20, e12, e21]
    norm_num
  have hw : drvSpin !![-1 / 2, 0, 0; 0, -1 / 2, 0; 0, 0, 1] = 0 := by
    unfold drvSpin
    rw [e01, e10, e02, e20, e12, e21]
    funext i; fin_cases i <;> simp
  have hv : drvVol (1 / 4000) 0 1 = .ok ![1, 1, 0, 0] := by
    unfold drvVol
    simp only [zero_mul, Real.exp_zero, mul_one, sub_self, zero_div]
    rw [if_neg (by norm_num)]
  unfold drvSetup
  rw [hd, hw]
  have e : (![-1 / 2, -1 / 2, 1, 0, 0, 0, 0] : Vec 7) 6 = 0 := rfl
  rw [e, hv]
  rfl

theorem frob_driver (tol : ℝ) : frob (devOfSvecP (drvInp tol).d) ≤ 5 / 4 := by
  unfold frob
  rw [Real.sqrt_le_left (by norm_num)]
  simp [ddot, Fin.sum_univ_three, devOfSvecP, drvInp]
  norm_num

/-- the steps of the example program are within reach -/
theorem drvInp_loads {k : Voce} {κ hm tol : ℝ} (hxm : 0 < k.xm) (hw : 0 < k.gamW) (hκ : 0 ≤ κ) (hm0 : 0 < hm)
    (htol : 12 / 10 ^ 51 + 1 / 10 ^ 79 ≤ tol)
    (hreach : κ * ((1 + tol) * (2 + k.gamW)) ^ 2 ≤ 10 ^ 60 * hm * k.gamW) :
    Loads 12 k κ (hm / 2) (60 * stepSupply κ k.gamW (drvInp tol)) (drvInp tol) := by
  have ht0 : 0 < tol := lt_of_lt_of_le (by norm_num) htol
  have hf := frob_driver tol
  have hf0 : 0 ≤ frob (devOfSvecP (drvInp tol).d) := Real.sqrt_nonneg _
  have hv : (drvInp tol).vr 1 = 1 := rfl
  have hdt : (drvInp tol).dt = 1 / 4000 := rfl
  have hle : len (drvInp tol).w = 0 := by
    show Real.sqrt (dot 0 0) = 0
    simp [dot]
  refine ⟨by rw [hdt]; norm_num, by rw [hv]; norm_num, ?_, ?_, ?_⟩
  · rw [isDev_iff]
    simp [devOfSvecP, drvInp]
    norm_num
  · have h1 : (1 : ℝ) ≤ (10 ^ 60 : ℝ) ^ k.xm := Real.one_le_rpow (by norm_num) hxm.le
    unfold stepSupply imposed
    rw [hv, hdt, Real.one_rpow]
    have ht : (drvInp tol).tol = tol := rfl
    rw [ht]
    generalize frob (devOfSvecP (drvInp tol).d) = f at hf hf0
    have hs := Real.sqrt_nonneg κ
    have hsq := Real.sq_sqrt hκ
    set σ := Real.sqrt κ
    set A := (1 + tol) * (2 + k.gamW) with hA
    have hA0 : 0 < A := by positivity
    have hsup : f + tol * (k.gamW + f + 1 / 10 ^ 6 / (1 / 4000)) ≤ A := by
      rw [hA]
      have : tol * f ≤ tol * (5 / 4) := mul_le_mul_of_nonneg_left hf ht0.le
      nlinarith
    have hfA : f ≤ A := by rw [hA]; nlinarith [mul_pos ht0 hw]
    have hb : 60 * (1 / 4000 * 1 * (σ * (f + tol * (k.gamW + f + 1 / 10 ^ 6 / (1 / 4000))))) + 1 / 4000 * 1 * (σ * f)
        ≤ 61 / 4000 * (σ * A) := by
      have e1 := mul_le_mul_of_nonneg_left hsup hs
      have e2 := mul_le_mul_of_nonneg_left hfA hs
      linarith
    have h00 : 0 ≤ 60 * (1 / 4000 * 1 * (σ * (f + tol * (k.gamW + f + 1 / 10 ^ 6 / (1 / 4000)))))
        + 1 / 4000 * 1 * (σ * f) := by positivity
    have h2 : (61 / 4000 * (σ * A)) ^ 2 = (61 / 4000) ^ 2 * (κ * A ^ 2) := by rw [← hsq]; ring
    refine (pow_le_pow_left₀ h00 hb 2).trans ?_
    rw [h2]
    have h3 : 10 ^ 60 * hm * k.gamW ≤ (10 ^ 60 : ℝ) ^ k.xm * (10 ^ 60 * hm * k.gamW) :=
      le_mul_of_one_le_left (by positivity) h1
    have h4 : 0 ≤ κ * A ^ 2 := by positivity
    calc (61 / 4000 : ℝ) ^ 2 * (κ * A ^ 2) ≤ 1 / 2000 * (κ * A ^ 2) := by
          refine mul_le_mul_of_nonneg_right (by norm_num) h4
      _ ≤ 1 / 2000 * ((10 ^ 60 : ℝ) ^ k.xm * (10 ^ 60 * hm * k.gamW)) :=
          mul_le_mul_of_nonneg_left (hreach.trans h3) (by norm_num)
      _ = _ := by ring
  · rw [hle]
    have : (drvInp tol).tol = tol := rfl
    rw [this, zero_div, add_zero, mul_one]
    exact_mod_cast htol

/-- **C82, one crystal of the example program**: from an unloaded state all 60 steps succeed. -/
theorem C82_driven {M : Material 12 1} {k : Voce} {S : Solver 1} (hS : Finds S) {c11 c12 c44 : ℝ}
    (hM : PowerCubic M k S c11 c12 c44) {H hm tol : ℝ} (hk : Steady 12 k H) (hm0 : 0 < hm) (hmt : hm ≤ k.tausi)
    (hKm : 60 * (4 / 10 ^ 10 * H) ≤ hm) (X : Ext) (hX : Finds X.solver) (hL : ∀ A B, (X.lup A B).isSome)
    (htol : 12 / 10 ^ 51 + 1 / 10 ^ 79 ≤ tol)
    (hreach : stiff c11 c12 c44 * ((1 + tol) * (2 + k.gamW)) ^ 2 ≤ 10 ^ 60 * hm * k.gamW)
    (s0 : DrvState 1 12) (hv : s0.vol = 1) (hr : InRange k M.el hm H 0 (Hist.ofArray s0.hist)) :
    ∃ t, t 0 = s0 ∧ Driven X M tol (1 / 4000) !![-1 / 2, 0, 0; 0, -1 / 2, 0; 0, 0, 1] 60 t := by
  have hκ : 0 ≤ stiff c11 c12 c44 := by
    unfold stiff
    exact (by linarith [hM.stable.2] : (0 : ℝ) ≤ 2 * c44).trans (le_max_right _ _)
  have hload := drvInp_loads hk.xm hk.gamW hκ hm0 htol hreach
  have ht0 : 0 < tol := lt_of_lt_of_le (by norm_num) htol
  set sup := stepSupply (stiff c11 c12 c44) k.gamW (drvInp tol) with hsup
  have hs0 : 0 ≤ sup := by
    have hf0 : 0 ≤ frob (devOfSvecP (drvInp tol).d) := Real.sqrt_nonneg _
    have := hk.gamW
    have hv : (drvInp tol).vr 1 = 1 := rfl
    have hdt : (drvInp tol).dt = 1 / 4000 := rfl
    have ht : (drvInp tol).tol = tol := rfl
    rw [hsup]
    unfold stepSupply
    rw [hv, hdt, ht, Real.one_rpow]
    positivity
  let out : DrvState 1 12 → DrvState 1 12 := fun s =>
    match drvStep X M tol (1 / 4000) !![-1 / 2, 0, 0; 0, -1 / 2, 0; 0, 0, 1] s with
    | .ok s' => s'
    | _ => s
  let t : ℕ → DrvState 1 12 := fun j => Nat.rec s0 (fun _ s => out s) j
  have step : ∀ j < 60, ∀ s : DrvState 1 12, s.vol = 1 →
      InRange k M.el (lowAt hm H j) (highAt H j) (j * sup) (Hist.ofArray s.hist) →
      drvStep X M tol (1 / 4000) !![-1 / 2, 0, 0; 0, -1 / 2, 0; 0, 0, 1] s = .ok (out s) ∧ (out s).vol = 1 ∧
      InRange k M.el (lowAt hm H (j + 1)) (highAt H (j + 1)) ((j + 1 : ℕ) * sup) (Hist.ofArray (out s).hist) := by
    intro j hj s hv hr
    have hjR : (j : ℝ) ≤ 60 := by exact_mod_cast hj.le
    obtain ⟨m', h1, h2⟩ := C82_next hS hM hk hm0 hmt (K := 60) (by norm_num) (by push_cast; exact hKm) j hj (j * sup) X hX
      (drvInp tol) (hload.mono hk.gamW le_rfl (mul_le_mul_of_nonneg_right hjR hs0) (by positivity))
      { eInt := s.eng, stress := drvStress s.stress, hist := s.hist, tkelv := 300, sdd := s.sdd, mtan := some 0 }
      hr (Or.inr hL)
    have e : drvStep X M tol (1 / 4000) !![-1 / 2, 0, 0; 0, -1 / 2, 0; 0, 0, 1] s
        = .ok { hist := m'.hist, vol := 1, eng := m'.eInt, stress := drvRetrieve m'.stress, sdd := m'.sdd } := by
      unfold drvStep
      rw [hv, drvSetup_driver]
      dsimp only
      have h1' := h1
      unfold drvInp at h1'
      rw [h1']
      rfl
    have eo : out s = { hist := m'.hist, vol := 1, eng := m'.eInt, stress := drvRetrieve m'.stress, sdd := m'.sdd } := by
      simp only [out, e]
    refine ⟨by rw [eo]; exact e, by rw [eo], ?_⟩
    rw [eo]
    refine h2.mono le_rfl le_rfl ?_
    push_cast
    linarith
  have key : ∀ j, j ≤ 60 → (t j).vol = 1 ∧
      InRange k M.el (lowAt hm H j) (highAt H j) (j * sup) (Hist.ofArray (t j).hist) := by
    intro j
    induction j with
    | zero => exact fun _ => ⟨hv, hr.mono (by unfold lowAt; simp) (by unfold highAt; simp) (by simp)⟩
    | succ j ih =>
      intro hj
      obtain ⟨a, b⟩ := ih (by omega)
      exact (step j (by omega) (t j) a b).2
  refine ⟨t, rfl, fun j hj => ?_⟩
  obtain ⟨a, b⟩ := key j hj.le
  exact (step j hj (t j) a b).1

/-- the lines of a parameter file for the model `voce` -/
def vocePars (rho0 cv tol c11 c12 c44 : ℝ) (k : Voce) (gamma ec0 : ℝ) : List ℝ :=
  [rho0, cv, tol, c11, c12, c44] ++ k.getParams ++ [gamma, ec0]

/-- **C82, the program.** With proper files for the model `voce` - stable elasticity, positive parameters, orientations
    other than zero, a tolerance that is not below rounding - the example program goes through all its 60 steps and
    prints 60 lines. -/
theorem C82_program {R : Reader} {u : ℕ → ℝ} {omp gpu : Bool} {S : Solver 1} (hS : Finds S) {X : Ext}
    (hX : Finds X.solver) (hL : ∀ A B, (X.lup A B).isSome) (g : ℕ → ℕ → ℝ) {files : String → List String}
    {optionFile : String} {rho0 cv tol c11 c12 c44 gamma ec0 : ℝ} {k : Voce} {qs : List (Vec 4)} {device : Strategy}
    (hF : Files R u omp gpu files optionFile .fccA (vocePars rho0 cv tol c11 c12 c44 k gamma ec0) qs device)
    (hq : ∀ q ∈ qs, q ≠ 0) (hcv : cv ≠ 0) (hel : c12 < c11 ∧ 0 < c44 ∧ 0 < c11 + 2 * c12) {H : ℝ} (hk : Steady 12 k H)
    (hxp : k.xmprime = 1) (hpos : 0 < k.tausi ∧ 0 < k.hdnInit) (hH : k.hdnInit ≤ H)
    (hdrift : 60 * (4 / 10 ^ 10 * H) ≤ min k.tausi k.hdnInit) (htol : 12 / 10 ^ 51 + 1 / 10 ^ 79 ≤ tol)
    (hreach : stiff c11 c12 c44 * ((1 + tol) * (2 + k.gamW)) ^ 2 ≤ 10 ^ 60 * min k.tausi k.hdnInit * k.gamW) :
    ∃ out, drvMain R u omp gpu S X g files optionFile = .ok out ∧ out.length = 60 := by
  let M : Material 12 1 :=
    { geom := slipPQ fccM fccS, kin := k.kin S 12, el := .cubic c11 c12 c44
      eos := { isothermal := false, rho0 := rho0, bulkMod := (Elast.cubic c11 c12 c44).kBulkMod, cvav := cv
               gamma := gamma, ec0 := ec0 } }
  have hM : PowerCubic M k S c11 c12 c44 :=
    ⟨⟨fccM, fccS, rfl, C16_fcc.1⟩, rfl, rfl, ⟨hel.1, hel.2.1⟩, hcv⟩
  have hset : Voce.setParams false k.getParams = .ok k := by
    have := Voce.setParams_lin k.mu k.xm k.gamW k.h0 k.tausi k.taus0 k.xms k.gamss0 k.hdnInit
    unfold Voce.getParams
    rw [this]
    obtain ⟨a1, a2, a3, a4, a5, a6, a7, a8, a9, a10, a11⟩ := k
    have hlin := hk.linear
    simp only at hxp hlin
    subst hxp
    subst hlin
    rfl
  have hB : BuiltFrom Case.fccA.type S (vocePars rho0 cv tol c11 c12 c44 k gamma ec0) M tol := by
    refine ⟨rho0, cv, gamma, ec0, [], [c11, c12, c44], k.getParams, k.histInfo, rfl, rfl, rfl, rfl, C16_fcc.2, rfl, ?_,
      ?_, rfl, rfl⟩
    · show kinVoce false 12 S k.getParams = _
      unfold kinVoce
      rw [hset]
      rfl
    · show 0 < (Elast.cubic c11 c12 c44).kBulkMod
      unfold Elast.kBulkMod
      have := hel.2.2
      simp only
      linarith
  have hfresh : ∀ q ∈ qs, ∃ t : ℕ → DrvState 1 12, Fresh .fccA (vocePars rho0 cv tol c11 c12 c44 k gamma ec0) q (t 0) ∧
      Driven X M tol (1 / 4000) !![-1 / 2, 0, 0; 0, -1 / 2, 0; 0, 0, 1] 60 t := by
    intro q hqq
    let h0 : Hist 1 12 :=
      { shrateEff := 0, shrEff := 0, flowStr := 0, nFEval := 0, e := 0, q := q, h := fun _ => k.hdnInit, gdot := 0 }
    let s0 : DrvState 1 12 := { hist := h0.toArray, vol := 1, eng := 0, stress := 0, sdd := 0 }
    have hs : Hist.ofArray s0.hist = h0 := Hist.ofArray_toArray h0
    obtain ⟨t, ht, hd⟩ := C82_driven hS hM (hm := min k.tausi k.hdnInit) hk (lt_min hpos.1 hpos.2) (min_le_left _ _) hdrift
      X hX hL htol hreach s0 rfl (by
        rw [hs]
        refine ⟨hq q hqq, min_le_right _ _, hH, ?_, ?_⟩
        · rw [energyNorm_eq]
          unfold wNorm
          simp [h0]
        · simp only [h0, Pi.zero_apply, abs_zero, Finset.sum_const_zero]
          have := hk.gamW
          positivity)
    refine ⟨t, ?_, hd⟩
    rw [ht]
    refine ⟨?_, ?_, ?_, ?_, ?_, ?_, ?_, rfl, rfl, rfl⟩
    all_goals first
      | exact congrArg Hist.q hs
      | exact congrArg Hist.e hs
      | exact congrArg Hist.gdot hs
      | exact congrArg Hist.shrEff hs
      | exact congrArg Hist.shrateEff hs
      | exact congrArg Hist.nFEval hs
      | (intro i; exact congrFun (congrArg Hist.h hs) i)
  have hts : ∃ ts : List (ℕ → DrvState 1 12), List.Forall₂ (fun q t =>
      Fresh .fccA (vocePars rho0 cv tol c11 c12 c44 k gamma ec0) q (t 0) ∧
      Driven X M tol (1 / 4000) !![-1 / 2, 0, 0; 0, -1 / 2, 0; 0, 0, 1] 60 t) qs ts := by
    clear hF hq
    induction qs with
    | nil => exact ⟨[], .nil⟩
    | cons q qs ih =>
      obtain ⟨t, ht⟩ := hfresh q (by simp)
      obtain ⟨ts, hts⟩ := ih fun q hq => hfresh q (by simp [hq])
      exact ⟨t :: ts, .cons ht hts⟩
  obtain ⟨ts, hts⟩ := hts
  refine ⟨_, (C81_main R u omp gpu S X g files optionFile _).2
    ⟨.fccA, _, qs, device, M, tol, hF, hB, ts, hts, rfl⟩, by simp⟩

theorem Files.unique {R : Reader} {u : ℕ → ℝ} {omp gpu : Bool} {files : String → List String} {optionFile : String}
    {c c' : Case} {pars pars' : List ℝ} {qs qs' : List (Vec 4)} {device device' : Strategy}
    (h : Files R u omp gpu files optionFile c pars qs device)
    (h' : Files R u omp gpu files optionFile c' pars' qs' device') : qs = qs' := by
  obtain ⟨ori, word, props, dev, rest, h1, -, -, -, head, k, hh, hq⟩ := h.options
  obtain ⟨ori', word', props', dev', rest', h1', -, -, -, head', k', hh', hq'⟩ := h'.options
  rw [h1] at h1'
  simp only [List.cons.injEq] at h1'
  obtain ⟨rfl, -, -, -, -⟩ := h1'
  rw [hh] at hh'
  obtain ⟨rfl, rfl⟩ := Prod.mk.inj (Option.some.inj hh')
  rcases hq with ⟨a, b⟩ | ⟨a, b, -⟩
  · rcases hq' with ⟨-, b'⟩ | ⟨a', -⟩
    · rw [b] at b'
      exact List.map_injective_iff.2 (Option.some_injective _) b'
    · exact absurd a' a
  · rcases hq' with ⟨a', -⟩ | ⟨-, b', -⟩
    · exact absurd a a'
    · rw [b, b']

/-- **C82, the zero quaternion.** The orientations are not checked: with a line of four zeros in the orientation file
    the program never reaches its end, whatever the model, the parameters and the solvers. -/
theorem C82_zero_quat {R : Reader} {u : ℕ → ℝ} {omp gpu : Bool} {S : Solver 1} {X : Ext} (g : ℕ → ℕ → ℝ)
    {files : String → List String} {optionFile : String} {c : Case} {pars : List ℝ} {qs : List (Vec 4)}
    {device : Strategy} (hF : Files R u omp gpu files optionFile c pars qs device) (h0 : 0 ∈ qs) (out : List (Vec 6)) :
    drvMain R u omp gpu S X g files optionFile ≠ .ok out := by
  intro h
  obtain ⟨c', pars', qs', device', M, tol, hF', -, ts, hts, -⟩ := (C81_main ..).1 h
  have hqs : qs' = qs := Files.unique hF' hF
  rw [← hqs] at h0
  clear hF' hF hqs h
  induction hts with
  | nil => simp at h0
  | cons hd _ ih =>
    rcases List.mem_cons.1 h0 with h1 | h1
    · obtain ⟨hf, hdr⟩ := hd
      have hs := hdr 0 (by norm_num)
      unfold drvStep at hs
      split at hs
      · cases hs
      · cases hs
      · split at hs
        · cases hs
        · cases hs
        · rename_i m hm
          obtain ⟨W⟩ := getResponseSngl_ok hm
          exact W.hq (hf.quat.trans h1.symm)
    · exact ih h1

/-! ### Concrete cases -/

/-- the power law of the copper in the parameter files of the repository -/
noncomputable def copperVoce : Voce where
  nonlinear := false
  mu := 44
  xm := 0.02
  gamW := 1
  h0 := 400e-3
  tausi := 17e-3
  taus0 := 122.4e-3
  xmprime := 1
  xms := 0
  gamss0 := 5e9
  hdnInit := 17e-3

theorem copper_steady : Steady 12 copperVoce 1 where
  linear := rfl
  xm := by norm_num [copperVoce]
  gamW := by norm_num [copperVoce]
  h0 := by norm_num [copperVoce]
  gamss0 := by norm_num [copperVoce]
  one := le_rfl
  sat := by
    intro γ _ _
    unfold voceSat
    have e : copperVoce.xms = 0 := rfl
    rw [e, Real.rpow_zero, mul_one, ite_self]
    norm_num [copperVoce]

theorem exPars_voce : exPars = vocePars 8.92e-6 0.003435984 1e-10 168.4 121.4 75.2 copperVoce 1.7 (-1.0307952) := by
  simp [exPars, vocePars, Voce.getParams, copperVoce]
  norm_num

theorem copper_reach : stiff 168.4 121.4 75.2 * ((1 + 1e-10) * (2 + copperVoce.gamW)) ^ 2
    ≤ 10 ^ 60 * min copperVoce.tausi copperVoce.hdnInit * copperVoce.gamW := by
  unfold stiff
  norm_num [copperVoce]

/-- the example program with the copper parameters and two orientations, on the GPU: it runs to its end -/
example (g : ℕ → ℕ → ℝ) (u : ℕ → ℝ) : ∃ out,
    drvMain (exReader exPars) u false true (idealSolver 1) ⟨idealSolver 8, fun _ B => some B, 1⟩ g
      (exFiles "voce" "GPU" 17) "options" = .ok out ∧ out.length = 60 := by
  have hF := exFiles_ok .fccA "voce" "GPU" .gpu false true exPars u (Or.inl ⟨rfl, rfl⟩) (Or.inr (Or.inr ⟨rfl, rfl, rfl⟩))
  have hl : exPars.length = 17 := rfl
  rw [hl] at hF
  rw [exPars_voce] at hF ⊢
  refine C82_program (idealSolver_finds 1) (idealSolver_finds 8) (fun _ _ => rfl) g hF ?_ (by norm_num) (by norm_num)
    copper_steady rfl (by norm_num [copperVoce]) (by norm_num [copperVoce]) (by norm_num [copperVoce]) (by norm_num)
    copper_reach
  intro q hq h0
  simp only [List.mem_cons, List.not_mem_nil, or_false] at hq
  rcases hq with rfl | rfl
  · simpa using congrFun h0 0
  · simpa using congrFun h0 0

/-- two lines of zeros -/
example (g : ℕ → ℕ → ℝ) (u : ℕ → ℝ) (S : Solver 1) (X : Ext) (out : List (Vec 6)) :
    drvMain { exReader exPars with quat := fun _ => some 0 } u false true S X g (exFiles "voce" "GPU" 17) "options"
      ≠ .ok out := by
  have hF := exFiles_ok .fccA "voce" "GPU" .gpu false true exPars u (Or.inl ⟨rfl, rfl⟩) (Or.inr (Or.inr ⟨rfl, rfl, rfl⟩))
  refine C82_zero_quat g (c := .fccA) (pars := exPars) (qs := [0, 0]) (device := .gpu) ⟨?_, hF.size⟩ (by simp) out
  obtain ⟨ori, word, props, dev, rest, h1, hw, hd, hp, head, k, hh, -⟩ := hF.options
  have e : ori = "ori" := by
    have : exFiles "voce" "GPU" exPars.length "options" = ["ori", "voce", "props", "GPU"] := by simp [exFiles]
    rw [this] at h1
    exact (List.cons.inj h1).1.symm
  subst e
  refine ⟨"ori", word, props, dev, rest, h1, hw, hd, hp, head, k, hh, Or.inl ⟨?_, ?_⟩⟩
  · have h2 : (exFiles "voce" "GPU" exPars.length "ori").headD "" = "#data 0" := by simp [exFiles]
    rw [h2] at hh
    have h3 : (exReader exPars).header "#data 0" = some ("#data", ⟨0, by norm_num⟩) := by simp [exReader]
    rw [h3] at hh
    rw [← (Prod.mk.inj (Option.some.inj hh)).1]
    decide
  · simp [exFiles]

/-- the hypotheses of the theorem on histories: the same crystal, any memory with an unloaded
    history -/
example (m0 : Mem 1 12) (hq : (histOf m0).q ≠ 0) (hh : (histOf m0).h 0 = 17e-3) (he : (histOf m0).e = 0)
    (hg : (histOf m0).gdot = 0) : ∃ t : Trajectory (⟨slipPQ fccM fccS, copperVoce.kin (idealSolver 1) 12,
      .cubic 168.4 121.4 75.2, ⟨false, 8.92e-6, 137, 0.003435984, 1.7, -1.0307952⟩⟩ : Material 12 1) 60,
      t.inp = (fun _ => drvInp 1e-10) ∧ t.m 0 = m0 := by
  have hM : PowerCubic (⟨slipPQ fccM fccS, copperVoce.kin (idealSolver 1) 12,
      .cubic 168.4 121.4 75.2, ⟨false, 8.92e-6, 137, 0.003435984, 1.7, -1.0307952⟩⟩ : Material 12 1) copperVoce
      (idealSolver 1) 168.4 121.4 75.2 :=
    ⟨⟨fccM, fccS, rfl, C16_fcc.1⟩, rfl, rfl, by norm_num, by norm_num⟩
  have hm : min copperVoce.tausi copperVoce.hdnInit = 17e-3 := by norm_num [copperVoce]
  have hr := copper_reach
  rw [hm] at hr
  have hκ : (0 : ℝ) ≤ stiff 168.4 121.4 75.2 := by unfold stiff; norm_num
  have hw : 0 < copperVoce.gamW := by norm_num [copperVoce]
  have hload := drvInp_loads copper_steady.xm hw hκ (by norm_num : (0 : ℝ) < 17e-3) (tol := 1e-10) (by norm_num) hr
  have hs0 : 0 ≤ stepSupply (stiff 168.4 121.4 75.2) copperVoce.gamW (drvInp 1e-10) := by
    have hf0 : 0 ≤ frob (devOfSvecP (drvInp 1e-10).d) := Real.sqrt_nonneg _
    have hv : (drvInp 1e-10).vr 1 = 1 := rfl
    have hdt : (drvInp 1e-10).dt = 1 / 4000 := rfl
    have ht : (drvInp 1e-10).tol = 1e-10 := rfl
    unfold stepSupply
    rw [hv, hdt, ht, Real.one_rpow]
    positivity
  obtain ⟨t, -, h2, h3, -, -⟩ := C82_history (idealSolver_finds 1) hM copper_steady (hm := 17e-3) (by norm_num)
    (by norm_num [copperVoce]) (K := 60) (by norm_num) (by norm_num) (fun _ => ⟨idealSolver 8, fun _ B => some B, 1⟩)
    (fun _ _ => idealSolver_finds 8) (fun _ _ _ _ => rfl) (fun _ => drvInp 1e-10) 0 (fun j hj => by
      refine hload.mono hw le_rfl ?_ ?_
      · have : (j : ℝ) ≤ 60 := by exact_mod_cast hj.le
        simp only [zero_add, Finset.sum_const, Finset.card_range, nsmul_eq_mul]
        exact mul_le_mul_of_nonneg_right this hs0
      · simp only [zero_add, Finset.sum_const, Finset.card_range, nsmul_eq_mul]
        positivity) (fun _ m => m) (fun _ _ => rfl) m0 (by
      refine ⟨hq, hh.ge, by rw [hh]; norm_num, ?_, ?_⟩
      · rw [he, energyNorm_eq]
        unfold wNorm
        simp
      · rw [hg]
        simp only [Pi.zero_apply, abs_zero, Finset.sum_const_zero]
        positivity)
  exact ⟨t, h2, h3⟩

end Ecm.Props
