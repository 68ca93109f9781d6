/- Property theorems C105: the equation of state and the energy balance in floating-point arithmetic
   (src/ecmech/ECMech_eosSimple.h:42-43, 77-118, 147-156, 170-191, src/ecmech/ECMech_util.h:396-407,
   src/ecmech/ECMech_evptn.h:1054-1078, 1217, 1238-1242). -/
import Verif.Lemmas.EosRound
import Verif.Props.RoundingAcc
import Verif.Props.ResidRound

namespace Ecm.Props
open Ecm Spec
variable {F : Flt}

/-- **C105 without rounding, the definitions are those of the model of the update**: pressure, temperature,
    energy and bulk modulus of `updateSimple`, and the energy handed back by `getResponseSngl`. -/
theorem C105_exact (hF : ∀ x, F.fl x = x) (s : Eos) (v dv e p : ℝ) :
    F.evalP s v e = (s.evalPT v e).1 ∧ F.evalT s e = (s.evalPT v e).2 ∧
    F.evalP s v (F.eVol dv e p) = (s.updateSimple v dv e p).press ∧
    F.evalT s (F.eVol dv e p) = (s.updateSimple v dv e p).tK ∧
    F.eVol dv e p = (s.updateSimple v dv e p).eNew ∧
    F.bulkNew s v p = (s.updateSimple v dv e p).bulkNew ∧
    ∀ (inp : Inputs) (σ σ' : Vec 7) (e : ℝ), F.energyStep inp.vr inp.dt inp.d σ σ' e
      = (s.updateSimple (inp.vr 1) (inp.vr 3) e (σ 6)).eNew + (Step.halfVMidDt inp * vecsInnerSvecDev σ inp.d
          + Step.halfVMidDt inp * vecsInnerSvecDev σ' inp.d) := by
  unfold Flt.evalP Flt.evalT Flt.eVol Flt.bulkNew Flt.energyStep Flt.eVol Flt.eDevTot Flt.halfVMidDt
    Flt.innerSvecDev Flt.tK0 Flt.dtde0 Eos.updateSimple Eos.evalPTDiff Eos.evalPT Eos.evalT Eos.tK0 Eos.dtde0
    Step.halfVMidDt vecsInnerSvecDev
  simp only [hF]
  refine ⟨?_, ?_, ?_, ?_, ?_, ?_, ?_⟩
  all_goals first | trivial | (intros; trivial) | (split_ifs <;> simp)

/-- **C105 the pressure** is within `(5.1 K + 2.1 G)` roundoffs of the exact one, with `K` the size of the
    bulk modulus and `G` that of the thermal part; the error does not shrink with the pressure. -/
theorem C105_pressure (s : Eos) {v e K G : ℝ} (h0 : 1 / 2 ≤ v) (hK : Pw K 100) (hG : Pw G 100)
    (hk : |s.bulkMod| ≤ K) (hg : |s.gamma * e| ≤ G) :
    |F.evalP s v e - (s.evalPT v e).1| ≤ (5.1 * K + 2.1 * G) * F.w := by
  have k0 := hK.pos; have g0 := hG.pos
  have a := (Flt.mu_err (F := F) h0).scale (s := s.bulkMod) hk (by norm_num)
    (by rw [mul_one]; exact hK.mono (by norm_num))
  have b := (a.add (Flt.prod_err hg (hG.mono (by norm_num))) (by linarith) (by linarith)
    (by rw [mul_one]; exact (hK.add hG).mono (by norm_num))).mono (e' := 5.1 * K + 2.1 * G) (by linarith) le_rfl
  have a' := a.mono (e' := 5.1 * K + 2.1 * G) (by linarith) le_rfl
  unfold Flt.evalP Eos.evalPT
  dsimp only
  split_ifs
  · exact a'.2
  · exact b.2

/-- **C105 the temperature** computed from a stored energy `e'` that is within `Δ` of the exact `e`: within
    `3.1 (E + Z) C` roundoffs plus `C Δ`, with `C` the size of 1 / cvav and `Z` that of the offset energy. -/
theorem C105_temperature (s : Eos) {e e' E Z C Δ v : ℝ} (hE : Pw E 50) (hZ : Pw Z 50) (hC : Pw C 50)
    (he : |e'| ≤ E) (hz : |s.ec0| ≤ Z) (hc : |1 / s.cvav| ≤ C) (hd : |e' - e| ≤ Δ) :
    |F.evalT s e' - (s.evalPT v e).2| ≤ 3.1 * ((E + Z) * C) * F.w + C * Δ := by
  have e0 := hE.pos; have z0 := hZ.pos; have c0 := hC.pos; have w0 := F.w_pos
  have ec : 0 < E * C := by positivity
  have zc : 0 < Z * C := by positivity
  have δ0 : 0 ≤ Δ := (abs_nonneg _).trans hd
  have a := ((Flt.Er.exact (F := F) hc).round (by linarith) (hC.mono (by norm_num)))
  have t := a.scale (s := -s.ec0) (m := Z) (by rwa [abs_neg]) (by linarith) ((hZ.mul hC).mono (by norm_num))
  have q := a.scale (s := e') (m := E) he (by linarith) ((hE.mul hC).mono (by norm_num))
  have r := t.add q (by linarith) (by linarith) (((hZ.mul hC).add (hE.mul hC)).mono (by norm_num))
  unfold Flt.evalT Eos.evalPT Flt.tK0 Flt.dtde0 Eos.tK0 Eos.dtde0
  dsimp only
  split_ifs
  · have h := t.2
    have : (Z * (0 + 1.01 * C) + 1.01 * (Z * C)) * F.w ≤ 3.1 * ((E + Z) * C) * F.w :=
      mul_le_mul_of_nonneg_right (by nlinarith) w0.le
    have := mul_nonneg c0.le δ0
    linarith
  · have h := r.2
    have h1 : (Z * (0 + 1.01 * C) + 1.01 * (Z * C) + (E * (0 + 1.01 * C) + 1.01 * (E * C))
        + 1.01 * (Z * C + E * C)) * F.w ≤ 3.1 * ((E + Z) * C) * F.w :=
      mul_le_mul_of_nonneg_right (by nlinarith) w0.le
    have h2 : |(-s.ec0 * (1 / s.cvav) + e' * (1 / s.cvav)) - (-s.ec0 * (1 / s.cvav) + e * (1 / s.cvav))| ≤ C * Δ := by
      rw [show (-s.ec0 * (1 / s.cvav) + e' * (1 / s.cvav)) - (-s.ec0 * (1 / s.cvav) + e * (1 / s.cvav))
        = (1 / s.cvav) * (e' - e) by ring, abs_mul]
      exact mul_le_mul hc hd (abs_nonneg _) c0.le
    have := abs_sub_le (F.fl (F.fl (-s.ec0 * F.fl (1 / s.cvav)) + F.fl (e' * F.fl (1 / s.cvav))))
      (-s.ec0 * (1 / s.cvav) + e' * (1 / s.cvav)) (-s.ec0 * (1 / s.cvav) + e * (1 / s.cvav))
    linarith

/-- **C105 the bulk modulus** handed back is within `6.1 (K + G)` roundoffs of the exact one. -/
theorem C105_bulk (s : Eos) {v p K G dv e : ℝ} (h0 : 1 / 2 ≤ v) (h1 : v ≤ 2) (hK : Pw K 100) (hG : Pw G 100)
    (hk : |s.bulkMod| ≤ K) (hg : |s.gamma * p| ≤ G) :
    |F.bulkNew s v p - (s.updateSimple v dv e p).bulkNew| ≤ 6.1 * (K + G) * F.w := by
  have k0 := hK.pos; have g0 := hG.pos; have w0 := F.w_pos
  have p2 : ∀ {m : ℝ}, Pw m 100 → Pw (m * 2) 102 := fun h => h.mul (Pw.of_num 2 (by norm_num) (by norm_num))
  have a := (Flt.eta_err (F := F) h0).scale (s := s.bulkMod) hk (by norm_num) ((p2 hK).mono (by norm_num))
  have dp : |(if s.isothermal then 0 else s.gamma) * p| ≤ G := by
    split_ifs
    · rw [zero_mul, abs_zero]; exact g0.le
    · exact hg
  have b := (Flt.prod_err (F := F) dp (hG.mono (by norm_num))).mul (Flt.Er.exact (x := v) (m := 2)
    (by rw [abs_of_pos (by linarith)]; exact h1)) (by linarith) (by norm_num) ((p2 hG).mono (by norm_num))
  have c := (a.add b (by linarith) (by linarith) (((p2 hK).add (p2 hG)).mono (by norm_num)))
  have l : F.Er (F.fl 1e-5) 1e-5 1.01e-5 1e-5 :=
    ((Flt.Er.exact (F := F) (x := 1e-5) (m := 1e-5) (by rw [abs_of_pos (by norm_num)])).round (by norm_num)
      (Pw.of_num 190 (by norm_num) (by norm_num))).mono (by norm_num) le_rfl
  have f := l.mul (Flt.Er.exact (F := F) hk) (by norm_num) (by linarith)
    (((Pw.of_num 5 (by norm_num) (by norm_num) : Pw (1e-5:ℝ) 5).mul hK).mono (by norm_num))
  unfold Flt.bulkNew Eos.updateSimple Eos.evalPTDiff
  dsimp only
  refine (abs_max_sub_max_le_max _ _ _ _).trans (max_le ?_ ?_)
  · exact f.2.trans (mul_le_mul_of_nonneg_right (by nlinarith) w0.le)
  · exact c.2.trans (mul_le_mul_of_nonneg_right (by nlinarith) w0.le)

/-- the sizes in one step of the energy balance: volume ratios, length of the step, terms of the work,
    work of the pressure -/
structure WorkSized (vr : Vec 4) (dt : ℝ) (d s s' : Vec 7) (T A P : ℝ) : Prop where
  v0 : |vr 0| ≤ 2
  v1 : |vr 1| ≤ 2
  time : |dt| ≤ T
  old : ∀ i, |s i * d i| ≤ A
  new : ∀ i, |s' i * d i| ≤ A
  press : |vr 3 * s 6| ≤ P

/-- the energy after the step in exact arithmetic: the old one, less the work of the pressure, plus the work
    of the deviatoric stress by the trapezoidal rule -/
noncomputable def energyExact (vr : Vec 4) (dt : ℝ) (d s s' : Vec 7) (e : ℝ) : ℝ :=
  e - vr 3 * s 6 + 1 / 4 * (vr 0 + vr 1) * dt * (vecsInnerSvecDev s d + vecsInnerSvecDev s' d)

/-- **C105 one step of the energy.** The energy handed back is within `2.1 E + 3.1 P + 190 T A` roundoffs of
    the exact balance. -/
theorem C105_energy {vr : Vec 4} {dt : ℝ} {d s s' : Vec 7} {e E T A P : ℝ} (h : WorkSized vr dt d s s' T A P)
    (hE : Pw E 100) (hP : Pw P 100) (hT : Pw T 80) (hA : Pw A 100) (he : |e| ≤ E) :
    |F.energyStep vr dt d s s' e - energyExact vr dt d s s' e| ≤ (2.1 * E + 3.1 * P + 190 * (T * A)) * F.w := by
  have e0 := hE.pos; have p0 := hP.pos; have t0 := hT.pos; have a0 := hA.pos
  have ta : 0 < T * A := by positivity
  have pta := hT.mul hA
  have p9 : Pw (9 * (T * A) + 9 * (T * A)) 185 := by
    rw [← two_mul, ← mul_assoc]
    exact ((Pw.of_num 2 (by norm_num) (by norm_num) : Pw ((2:ℝ) * 9) 2).mul pta).mono (by norm_num)
  have a := (Flt.Er.exact (F := F) he).sub (Flt.prod_err h.press (hP.mono (by norm_num))) (by linarith) (by linarith)
    ((hE.add hP).mono (by norm_num))
  have b := (Flt.work_err (F := F) h.v0 h.v1 hT h.time hA h.old).add (Flt.work_err h.v0 h.v1 hT h.time hA h.new)
    (by linarith) (by linarith) (p9.mono (by norm_num))
  have c := a.add b (by linarith) (by linarith) ((((hE.add hP).mono (by norm_num)).add p9).mono (by norm_num))
  have e1 : energyExact vr dt d s s' e = e - vr 3 * s 6 + (1 / 4 * (vr 0 + vr 1) * dt * vecsInnerSvecDev s d
      + 1 / 4 * (vr 0 + vr 1) * dt * vecsInnerSvecDev s' d) := by unfold energyExact; ring
  rw [e1]
  exact c.2.trans (mul_le_mul_of_nonneg_right (by linarith) F.w_pos.le)

/-- a history of the stored energy: the stress before step `k` is `σ k`, the one after it `σ (k + 1)` -/
def EnergyHistory (F : Flt) (vr : ℕ → Vec 4) (dt : ℕ → ℝ) (d σ : ℕ → Vec 7) (e : ℕ → ℝ) : Prop :=
  ∀ k, e (k + 1) = F.energyStep (vr k) (dt k) (d k) (σ k) (σ (k + 1)) (e k)

/-- the energy after `N` steps in exact arithmetic: the initial one and all the work done -/
noncomputable def totalEnergy (vr : ℕ → Vec 4) (dt : ℕ → ℝ) (d σ : ℕ → Vec 7) (e0 : ℝ) (N : ℕ) : ℝ :=
  e0 + ∑ k ∈ Finset.range N, (1 / 4 * (vr k 0 + vr k 1) * dt k
    * (vecsInnerSvecDev (σ k) (d k) + vecsInnerSvecDev (σ (k + 1)) (d k)) - vr k 3 * σ k 6)

/-- **C105 the energy over a history.** After any number of steps the stored energy differs from the initial
    energy plus the work of the stored stresses by at most `N` times the bound of one step. -/
theorem C105_history {vr : ℕ → Vec 4} {dt : ℕ → ℝ} {d σ : ℕ → Vec 7} {e : ℕ → ℝ} {E T A P : ℝ}
    (h : EnergyHistory F vr dt d σ e) (hE : Pw E 100) (hP : Pw P 100) (hT : Pw T 80) (hA : Pw A 100) (N : ℕ)
    (hs : ∀ k < N, WorkSized (vr k) (dt k) (d k) (σ k) (σ (k + 1)) T A P) (he : ∀ k < N, |e k| ≤ E) :
    |e N - totalEnergy vr dt d σ (e 0) N| ≤ N * ((2.1 * E + 3.1 * P + 190 * (T * A)) * F.w) := by
  induction N with
  | zero => simp [totalEnergy]
  | succ N ih =>
    have i := ih (fun k hk => hs k (by omega)) (fun k hk => he k (by omega))
    have st := C105_energy (F := F) (hs N (by omega)) hE hP hT hA (he N (by omega))
    rw [← h N] at st
    have e1 : totalEnergy vr dt d σ (e 0) (N + 1) = energyExact (vr N) (dt N) (d N) (σ N) (σ (N + 1)) (e N)
        - (e N - totalEnergy vr dt d σ (e 0) N) := by
      unfold totalEnergy energyExact; rw [Finset.sum_range_succ]; ring
    rw [e1, show e (N + 1) - (energyExact (vr N) (dt N) (d N) (σ N) (σ (N + 1)) (e N)
        - (e N - totalEnergy vr dt d σ (e 0) N)) = (e (N + 1) - energyExact (vr N) (dt N) (d N) (σ N) (σ (N + 1)) (e N))
        + (e N - totalEnergy vr dt d σ (e 0) N) by ring]
    push_cast
    linarith [abs_add_le (e (N + 1) - energyExact (vr N) (dt N) (d N) (σ N) (σ (N + 1)) (e N))
      (e N - totalEnergy vr dt d σ (e 0) N)]

/-- **C105 the computed laws keep their monotony**, with any rounding that keeps the order of numbers: the
    pressure does not grow with the volume, neither pressure nor temperature fall when energy is added. -/
theorem C105_monotone (hF : Ordered F) (s : Eos) (hK : 0 ≤ s.bulkMod) (hg : 0 ≤ s.gamma) (hc : 0 < s.cvav) :
    (∀ e v v', 0 < v → v ≤ v' → F.evalP s v' e ≤ F.evalP s v e) ∧
    (∀ v e e', e ≤ e' → F.evalP s v e ≤ F.evalP s v e') ∧
    (∀ e e', e ≤ e' → F.evalT s e ≤ F.evalT s e') := by
  refine ⟨fun e v v' hv hvv => ?_, fun v e e' hee => ?_, fun e e' hee => ?_⟩
  · have m : F.fl (s.bulkMod * F.fl (F.fl (1 / v') - 1)) ≤ F.fl (s.bulkMod * F.fl (F.fl (1 / v) - 1)) :=
      hF.mono (mul_le_mul_of_nonneg_left
        (hF.mono (sub_le_sub_right (hF.mono (one_div_le_one_div_of_le hv hvv)) _)) hK)
    unfold Flt.evalP
    dsimp only
    split_ifs
    · exact m
    · exact hF.mono (add_le_add_left m _)
  · unfold Flt.evalP
    dsimp only
    split_ifs
    · exact le_rfl
    · exact hF.mono (add_le_add_right (hF.mono (mul_le_mul_of_nonneg_left hee hg)) _)
  · have d0 : 0 ≤ F.dtde0 s := by
      unfold Flt.dtde0; rw [← hF.zero]; exact hF.mono (by positivity)
    unfold Flt.evalT
    split_ifs
    · exact le_rfl
    · exact hF.mono (add_le_add_right (hF.mono (mul_le_mul_of_nonneg_right hee d0)) _)

/-- **C105 the reference state is exact**: no pressure and the reference temperature at volume one and
    energy zero. -/
theorem C105_reference (hF : Ordered F) (h1 : F.fl 1 = 1) (s : Eos) :
    F.evalP s 1 0 = 0 ∧ F.evalT s 0 = F.tK0 s := by
  unfold Flt.evalP Flt.evalT
  constructor
  · simp [h1, hF.zero]
  · simp [hF.zero, Flt.tK0, hF.idem]

/-- **C105 the bulk modulus stays positive**, whatever pressure and volume are. -/
theorem C105_bulk_pos (s : Eos) (hk : Pw s.bulkMod 100) (v p : ℝ) : 0 < F.bulkNew s v p := by
  have k0 := hk.pos
  have hw := F.w_le; have w0 := F.w_pos
  have l : F.Er (F.fl 1e-5) 1e-5 1.01e-5 1e-5 :=
    ((Flt.Er.exact (F := F) (x := 1e-5) (m := 1e-5) (by rw [abs_of_pos (by norm_num)])).round (by norm_num)
      (Pw.of_num 190 (by norm_num) (by norm_num))).mono (by norm_num) le_rfl
  have f := l.mul (Flt.Er.exact (F := F) (x := s.bulkMod) (abs_of_pos k0).le) (by norm_num) (by linarith)
    (((Pw.of_num 5 (by norm_num) (by norm_num) : Pw (1e-5:ℝ) 5).mul hk).mono (by norm_num))
  refine lt_of_lt_of_le ?_ (le_max_left _ _)
  have h2 := (abs_le.1 f.2).1
  have h3 : (1.01e-5 * s.bulkMod + 1.003 * (1e-5 * 0) + 1.01 * (1e-5 * s.bulkMod)) * F.w
      ≤ (2.02e-5 * s.bulkMod) * (1.1 / 10 ^ 6) :=
    mul_le_mul (by linarith) hw w0.le (by positivity)
  have h4 : (2.02e-5 * s.bulkMod) * (1.1 / 10 ^ 6) ≤ 0.5 * (1e-5 * s.bulkMod) := by linarith
  have : 0 < 1e-5 * s.bulkMod := by positivity
  linarith

/-- the volume ratio used below: the largest double-precision number below one -/
noncomputable def vBelow : ℝ := 1 - 2⁻¹ ^ 53

theorem vBelow_double : dblRound vBelow = vBelow := by
  have hl : Int.log 2 |vBelow| = -1 := by
    have hp : (0:ℝ) < vBelow := by unfold vBelow; norm_num
    rw [abs_of_pos hp]
    apply le_antisymm
    · have : Int.log 2 vBelow < 0 := (Int.lt_zpow_iff_log_lt (by norm_num) hp).1 (by unfold vBelow; norm_num)
      omega
    · exact (Int.zpow_le_iff_le_log (by norm_num) hp).1 (by unfold vBelow; norm_num)
  have he : dblExp vBelow = -1 := by unfold dblExp; rw [hl]; norm_num
  refine dblRound_of_grid (j := 2 ^ 53 - 1) ?_
  rw [he]; unfold vBelow; norm_num

theorem vBelow_inv : dblRound (1 / vBelow) = 1 + 2⁻¹ ^ 52 := by
  have hp : (0:ℝ) < 1 / vBelow := by unfold vBelow; norm_num
  have hl : Int.log 2 |1 / vBelow| = 0 := by
    rw [abs_of_pos hp]
    apply le_antisymm
    · have : Int.log 2 (1 / vBelow) < 1 := (Int.lt_zpow_iff_log_lt (by norm_num) hp).1 (by unfold vBelow; norm_num)
      omega
    · exact (Int.zpow_le_iff_le_log (by norm_num) hp).1 (by unfold vBelow; norm_num)
  have he : dblExp (1 / vBelow) = 0 := by unfold dblExp; rw [hl]; norm_num
  have hr : round (1 / vBelow / (2:ℝ) ^ ((0:ℤ) - 52)) = 2 ^ 52 + 1 := by
    rw [round_eq, Int.floor_eq_iff]
    unfold vBelow
    constructor <;> norm_num
  unfold dblRound
  rw [he, hr]; norm_num

/-- **C105 refuted: the pressure does not have a small relative error.** In double precision, for the
    largest number below one as volume ratio, the computed pressure is almost twice the exact one. -/
theorem C105_refuted_relative (s : Eos) (hi : s.isothermal = true) (hk : s.bulkMod = 1) (e : ℝ) :
    dbl.fl vBelow = vBelow ∧ 0 < (s.evalPT vBelow e).1 ∧ 1.9 * (s.evalPT vBelow e).1 < dbl.evalP s vBelow e := by
  have pw : ∀ x : ℝ, x = 2⁻¹ ^ 52 → dblRound x = x := by
    rintro x rfl
    have hp : (0:ℝ) < 2⁻¹ ^ 52 := by positivity
    have hl : Int.log 2 |(2:ℝ)⁻¹ ^ 52| = -52 := by
      rw [abs_of_pos hp, show (2:ℝ)⁻¹ ^ 52 = ((2:ℕ):ℝ) ^ (-52 : ℤ) by norm_num]
      exact Int.log_zpow (by norm_num) _
    have he : dblExp ((2:ℝ)⁻¹ ^ 52) = -52 := by unfold dblExp; rw [hl]; norm_num
    refine dblRound_of_grid (j := 2 ^ 52) ?_
    rw [he]; norm_num
  refine ⟨vBelow_double, ?_, ?_⟩
  · simp only [Eos.evalPT, hi, hk, if_true]; unfold vBelow; norm_num
  · have h1 : dbl.fl (dbl.fl (1 / vBelow) - 1) = 2⁻¹ ^ 52 := by
      show dblRound (dblRound (1 / vBelow) - 1) = _
      rw [vBelow_inv, add_sub_cancel_left]; exact pw _ rfl
    have h2 : dbl.evalP s vBelow e = 2⁻¹ ^ 52 := by
      simp only [Flt.evalP, hi, hk, if_true]
      rw [h1, one_mul]; exact pw _ rfl
    rw [h2]
    simp only [Eos.evalPT, hi, hk, if_true]; unfold vBelow; norm_num

/-- a copper-like equation of state: bulk modulus 1.37, heat capacity 3.435e-5, Grueneisen 1.88, 300 K -/
noncomputable def eosRoundEx : Eos := ⟨false, 8.94, 1.37, 3.435e-5, 1.88, -1.0305e-2⟩

/-- hypotheses of the first theorems: a compression of one percent and an energy of 1e-3 in double precision;
    pressure and temperature are accurate to 1e-14 relative to the modulus and to 1e-12 kelvin -/
example : |dbl.evalP eosRoundEx 0.99 1e-3 - (eosRoundEx.evalPT 0.99 1e-3).1| ≤ 1 / 10 ^ 14 ∧
    |dbl.evalT eosRoundEx 1e-3 - (eosRoundEx.evalPT 0.99 1e-3).2| ≤ 1 / 10 ^ 12 ∧
    |dbl.bulkNew eosRoundEx 0.99 1e-2 - (eosRoundEx.updateSimple 0.99 0 0 1e-2).bulkNew| ≤ 1 / 10 ^ 14 ∧
    0 < dbl.bulkNew eosRoundEx 0.99 1e-2 := by
  have hw := dbl_w
  refine ⟨?_, ?_, ?_, ?_⟩
  · refine (C105_pressure (K := 1.37) (G := 2e-3) eosRoundEx (by norm_num) (Pw.of_num _ (by norm_num) (by norm_num))
      (Pw.of_num _ (by norm_num) (by norm_num)) (by simp only [eosRoundEx]; rw [abs_of_pos (by norm_num)])
      (by simp only [eosRoundEx]; rw [abs_of_pos (by norm_num)]; norm_num)).trans ?_
    nlinarith
  · refine (C105_temperature (e := 1e-3) (E := 1e-3) (Z := 1.0305e-2) (C := 1 / 3.435e-5) (Δ := 0) eosRoundEx
      (Pw.of_num _ (by norm_num) (by norm_num)) (Pw.of_num _ (by norm_num) (by norm_num))
      (Pw.of_num _ (by norm_num) (by norm_num)) (by rw [abs_of_pos (by norm_num)])
      (by simp only [eosRoundEx]; rw [abs_of_neg (by norm_num)]; norm_num)
      (by simp only [eosRoundEx]; rw [abs_of_pos (by norm_num)]) (by simp)).trans ?_
    nlinarith
  · refine (C105_bulk (K := 1.37) (G := 2e-2) eosRoundEx (by norm_num) (by norm_num)
      (Pw.of_num _ (by norm_num) (by norm_num)) (Pw.of_num _ (by norm_num) (by norm_num))
      (by simp only [eosRoundEx]; rw [abs_of_pos (by norm_num)])
      (by simp only [eosRoundEx]; rw [abs_of_pos (by norm_num)]; norm_num)).trans ?_
    nlinarith
  · exact C105_bulk_pos _ (Pw.of_num _ (by norm_num [eosRoundEx]) (by norm_num [eosRoundEx])) _ _

/-- hypotheses of the qualitative theorems: double precision keeps the order of numbers and contains one -/
example : Ordered dbl ∧ dbl.fl 1 = 1 ∧ 0 ≤ eosRoundEx.bulkMod ∧ 0 ≤ eosRoundEx.gamma ∧ 0 < eosRoundEx.cvav ∧
    dbl.evalP eosRoundEx 1 0 = 0 := by
  have hone : dbl.fl 1 = 1 := by
    have e : dblExp 1 = 0 := by simp [dblExp]
    show dblRound 1 = 1
    refine dblRound_of_grid (j := 2 ^ 52) ?_
    rw [e]; norm_num
  refine ⟨dbl_ordered, hone, ?_, ?_, ?_, (C105_reference dbl_ordered hone _).1⟩ <;> norm_num [eosRoundEx]

/-- a history for the example below: tension with a small change of volume in double precision -/
noncomputable def energyRoundEx : ℕ → ℝ
  | 0 => 0
  | k + 1 => dbl.energyStep ![1, 1, 0, 1e-6] 1 ![-5e-4, -5e-4, 1e-3, 0, 0, 0, 1e-6]
      ![-3e-4, -3e-4, 6e-4, 0, 0, 0, -3e-4] ![-3e-4, -3e-4, 6e-4, 0, 0, 0, -3e-4] (energyRoundEx k)

/-- hypotheses of the theorems on the energy: a thousand steps of tension in double precision; after them the
    stored energy agrees with the work done to 1e-12, and the temperature to 1e-7 kelvin -/
example : EnergyHistory dbl (fun _ => ![1, 1, 0, 1e-6]) (fun _ => 1) (fun _ => ![-5e-4, -5e-4, 1e-3, 0, 0, 0, 1e-6])
      (fun _ => ![-3e-4, -3e-4, 6e-4, 0, 0, 0, -3e-4]) energyRoundEx ∧
    |energyRoundEx 1000 - 9.003e-4| ≤ 1 / 10 ^ 12 ∧
    |dbl.evalT eosRoundEx (energyRoundEx 1000) - (eosRoundEx.evalPT 1 9.003e-4).2| ≤ 1 / 10 ^ 7 := by
  have hw := dbl_w
  have w0 := dbl.w_pos
  have pw : ∀ {m : ℝ} (j : ℕ), 1 / 10 ^ 10 ≤ m → m ≤ 10 ^ 10 → 10 ≤ j → Pw m j := fun j h0 h1 hj =>
    (Pw.of_num 10 h0 h1).mono hj
  have hH : EnergyHistory dbl (fun _ => ![1, 1, 0, 1e-6]) (fun _ => 1) (fun _ => ![-5e-4, -5e-4, 1e-3, 0, 0, 0, 1e-6])
      (fun _ => ![-3e-4, -3e-4, 6e-4, 0, 0, 0, -3e-4]) energyRoundEx := fun k => rfl
  have hS : WorkSized ![1, 1, 0, 1e-6] 1 ![-5e-4, -5e-4, 1e-3, 0, 0, 0, 1e-6] ![-3e-4, -3e-4, 6e-4, 0, 0, 0, -3e-4]
      ![-3e-4, -3e-4, 6e-4, 0, 0, 0, -3e-4] 1 1e-6 1e-9 := by
    refine ⟨by norm_num, by norm_num, by norm_num, ?_, ?_, ?_⟩
    · intro i; fin_cases i <;> norm_num [abs_le]
    · intro i; fin_cases i <;> norm_num [abs_le]
    · show |(1e-6 : ℝ) * -3e-4| ≤ 1e-9
      norm_num [abs_le]
  have hb : ∀ k : ℕ, k ≤ 1000 → |energyRoundEx k| ≤ k * 1e-6 := by
    intro k
    induction k with
    | zero => intro _; simp [energyRoundEx]
    | succ k ih =>
      intro hk
      have i := ih (by omega)
      have kr : (k:ℝ) ≤ 999 := by exact_mod_cast (by omega : k ≤ 999)
      have st := C105_energy (F := dbl) (e := energyRoundEx k) (E := 1) hS (pw _ (by norm_num) (by norm_num) (by norm_num))
        (pw _ (by norm_num) (by norm_num) (by norm_num)) (pw _ (by norm_num) (by norm_num) (by norm_num))
        (pw _ (by norm_num) (by norm_num) (by norm_num)) (by linarith)
      have e1 : energyExact ![1, 1, 0, 1e-6] 1 ![-5e-4, -5e-4, 1e-3, 0, 0, 0, 1e-6]
          ![-3e-4, -3e-4, 6e-4, 0, 0, 0, -3e-4] ![-3e-4, -3e-4, 6e-4, 0, 0, 0, -3e-4] (energyRoundEx k)
          = energyRoundEx k + 9.003e-7 := by
        simp [energyExact, vecsInnerSvecDev]; ring
      rw [e1] at st
      have st' : |energyRoundEx (k + 1) - (energyRoundEx k + 9.003e-7)| ≤ 1e-9 :=
        le_trans st (by nlinarith)
      have := abs_le.1 st'; have := abs_le.1 i
      push_cast
      rw [abs_le]; constructor <;> linarith
  have hm := C105_history hH (E := 1) (T := 1) (A := 1e-6) (P := 1e-9) (pw _ (by norm_num) (by norm_num) (by norm_num))
    (pw _ (by norm_num) (by norm_num) (by norm_num)) (pw _ (by norm_num) (by norm_num) (by norm_num))
    (pw _ (by norm_num) (by norm_num) (by norm_num)) 1000 (fun _ _ => hS) (fun k hk => by
      have := hb k (by omega)
      have kr : (k:ℝ) ≤ 1000 := by exact_mod_cast (by omega : k ≤ 1000)
      linarith)
  have e2 : totalEnergy (fun _ => ![1, 1, 0, 1e-6]) (fun _ => 1) (fun _ => ![-5e-4, -5e-4, 1e-3, 0, 0, 0, 1e-6])
      (fun _ => ![-3e-4, -3e-4, 6e-4, 0, 0, 0, -3e-4]) (energyRoundEx 0) 1000 = 9.003e-4 := by
    simp [totalEnergy, vecsInnerSvecDev, energyRoundEx]; norm_num
  rw [e2] at hm
  have h3 : |energyRoundEx 1000 - 9.003e-4| ≤ 1 / 10 ^ 12 := hm.trans (by push_cast; nlinarith)
  refine ⟨hH, h3, ?_⟩
  refine (C105_temperature (E := 1e-3) (Z := 1.0305e-2) (C := 1 / 3.435e-5) (Δ := 1 / 10 ^ 12) eosRoundEx
    (pw _ (by norm_num) (by norm_num) (by norm_num)) (pw _ (by norm_num) (by norm_num) (by norm_num))
    (pw _ (by norm_num) (by norm_num) (by norm_num)) ?_
    (by simp only [eosRoundEx]; rw [abs_of_neg (by norm_num)]; norm_num)
    (by simp only [eosRoundEx]; rw [abs_of_pos (by norm_num)]) h3).trans ?_
  · have := hb 1000 le_rfl
    push_cast at this; linarith
  · nlinarith

end Ecm.Props
