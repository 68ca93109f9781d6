/- Property theorems C93: the energy of volume changes over any number of steps
   (src/ecmech/ECMech_eosSimple.h:170-191, src/ecmech/ECMech_evptn.h:1056-1077 and 1239). -/
import Mathlib.Analysis.SpecificLimits.Basic
import Verif.Props.SlowLoad
import Verif.Props.Moduli

namespace Ecm.Props
open Ecm Spec Classical

variable {n nH : ℕ}

/-- energy per reference volume stored by compressing a body with the cold pressure `K (1/v - 1)` reversibly from the
    relative volume one to `v`: minus the integral of that pressure -/
noncomputable def coldEnergy (K v : ℝ) : ℝ := K * (v - 1 - Real.log v)

/-- the stored energy is that integral -/
theorem coldEnergy_deriv (K : ℝ) {v : ℝ} (hv : 0 < v) :
    HasDerivAt (coldEnergy K) (-(K * (1 / v - 1))) v ∧ coldEnergy K 1 = 0 := by
  refine ⟨?_, by simp [coldEnergy]⟩
  have h := (((hasDerivAt_id v).sub_const 1).sub (Real.hasDerivAt_log hv.ne')).const_mul K
  refine h.congr_deriv ?_
  rw [one_div]; ring

/-- energy lost when the volume jumps from `v` to `v'` in one step -/
noncomputable def jumpLoss (K v v' : ℝ) : ℝ := K * (v' / v - 1 - Real.log (v' / v))

theorem jumpLoss_nonneg {K v v' : ℝ} (hK : 0 ≤ K) (hv : 0 < v) (hv' : 0 < v') : 0 ≤ jumpLoss K v v' :=
  mul_nonneg hK (by have := Real.log_le_sub_one_of_pos (div_pos hv' hv); linarith)

theorem jumpLoss_pos {K v v' : ℝ} (hK : 0 < K) (hv : 0 < v) (hv' : 0 < v') (h : v' ≠ v) : 0 < jumpLoss K v v' := by
  refine mul_pos hK ?_
  have h1 : v' / v ≠ 1 := fun h2 => h (by rwa [div_eq_one_iff_eq hv.ne'] at h2)
  have := Real.log_lt_sub_one_of_pos (div_pos hv' hv) h1
  linarith

theorem jumpLoss_le {K v v' : ℝ} (hK : 0 ≤ K) (hv : 0 < v) (hv' : 0 < v') :
    jumpLoss K v v' ≤ K * ((v' - v) ^ 2 / (v * v')) := by
  refine mul_le_mul_of_nonneg_left ?_ hK
  have h := Real.log_le_sub_one_of_pos (div_pos hv hv')
  have h2 : Real.log (v / v') = -Real.log (v' / v) := by
    rw [← Real.log_inv]; congr 1; field_simp
  have h3 : v' / v - 1 + (v / v' - 1) = (v' - v) ^ 2 / (v * v') := by field_simp; ring
  linarith

/-- one jump of the volume: what the old pressure times the volume change gives -/
theorem jump_balance (K : ℝ) {v v' : ℝ} (hv : 0 < v) (hv' : 0 < v') :
    -((v' - v) * (K * (1 / v - 1))) = coldEnergy K v' - coldEnergy K v - jumpLoss K v v' := by
  unfold coldEnergy jumpLoss
  rw [Real.log_div hv'.ne' hv.ne']
  field_simp
  ring

/-- energy, pressure and volume are handed from step to step, and the volume increment is the difference of volumes -/
structure Handed {M : Material n nH} {N : ℕ} (t : Trajectory M N) : Prop where
  energy : ∀ k, k + 1 < N → (t.m (k + 1)).eInt = (t.m' k).eInt
  press : ∀ k, k + 1 < N → (t.m (k + 1)).stress 6 = (t.m' k).stress 6
  volume : ∀ k, k + 1 < N → (t.inp (k + 1)).vr 0 = (t.inp k).vr 1
  incr : ∀ k < N, (t.inp k).vr 3 = (t.inp k).vr 1 - (t.inp k).vr 0
  pos : ∀ k < N, 0 < (t.inp k).vr 0 ∧ 0 < (t.inp k).vr 1

/-- work of the deviatoric stress in step `k`, per reference volume -/
noncomputable def shapeWork {M : Material n nH} {N : ℕ} (t : Trajectory M N) (k : ℕ) : ℝ :=
  (t.inp k).dt * (((t.inp k).vr 0 + (t.inp k).vr 1) / 2)
    * ((ddot (devOfSvecP (t.m k).stress) (devOfSvecP (t.inp k).d)
      + ddot (devOfSvecP (t.m' k).stress) (devOfSvecP (t.inp k).d)) / 2)

/-- part of the pressure at the beginning of step `k` that is not the cold pressure of the volume -/
noncomputable def warmPress {M : Material n nH} {N : ℕ} (t : Trajectory M N) (k : ℕ) : ℝ :=
  (t.m k).stress 6 - M.eos.bulkMod * (1 / (t.inp k).vr 0 - 1)

/-- **C93, balance.** Over any number of steps the internal energy changes by the work of the deviatoric stress, the
    work of the warm part of the pressure, the change of the stored compression energy, and minus a loss for every
    jump of the volume. -/
theorem C93_balance {M : Material n nH} {N : ℕ} (t : Trajectory M N) (ht : Handed t) (k : ℕ) (hk : k < N) :
    (t.m' k).eInt = (t.m 0).eInt
      + ∑ j ∈ Finset.range (k + 1), (shapeWork t j - warmPress t j * ((t.inp j).vr 1 - (t.inp j).vr 0))
      + (coldEnergy M.eos.bulkMod ((t.inp k).vr 1) - coldEnergy M.eos.bulkMod ((t.inp 0).vr 0))
      - ∑ j ∈ Finset.range (k + 1), jumpLoss M.eos.bulkMod ((t.inp j).vr 0) ((t.inp j).vr 1) := by
  have hs : ∀ j < N, (t.m' j).eInt = (t.m j).eInt
      + (shapeWork t j - warmPress t j * ((t.inp j).vr 1 - (t.inp j).vr 0))
      + (coldEnergy M.eos.bulkMod ((t.inp j).vr 1) - coldEnergy M.eos.bulkMod ((t.inp j).vr 0))
      - jumpLoss M.eos.bulkMod ((t.inp j).vr 0) ((t.inp j).vr 1) := by
    intro j hj
    have hb := jump_balance M.eos.bulkMod (ht.pos j hj).1 (ht.pos j hj).2
    rw [C23_energy _ M _ _ _ (t.ok j hj), ht.incr j hj]
    unfold shapeWork warmPress
    linear_combination hb
  induction k with
  | zero => rw [hs 0 hk]; simp
  | succ k ih =>
    rw [hs _ hk, ht.energy k hk, ih (by omega), Finset.sum_range_succ _ (k + 1), Finset.sum_range_succ _ (k + 1),
      ht.volume k hk]
    ring

/-- with the isothermal equation of state the pressure of a cubic crystal has no warm part -/
theorem warmPress_zero {M : Material n nH} {c11 c12 c44 : ℝ} (hel : M.el = .cubic c11 c12 c44)
    (hγ : M.eos.isothermal = true ∨ M.eos.gamma = 0) {N : ℕ} (t : Trajectory M N) (ht : Handed t)
    (h0 : (t.m 0).stress 6 = M.eos.bulkMod * (1 / (t.inp 0).vr 0 - 1)) (k : ℕ) (hk : k < N) : warmPress t k = 0 := by
  cases k with
  | zero => unfold warmPress; rw [h0, sub_self]
  | succ k =>
    unfold warmPress
    rw [ht.press k hk, ht.volume k hk, C22_cubic _ M _ _ _ c11 c12 c44 hel (t.ok k (by omega))]
    rcases hγ with h | h
    · simp [Eos.evalPT, h]
    · unfold Eos.evalPT; split_ifs <;> simp [h]

/-- **C93, cycles lose energy.** A cubic crystal whose pressure depends on the volume alone: when the volume comes back to
    its first value, the internal energy is the one at the beginning plus the work of the deviatoric stress minus a loss
    that is never negative, and is positive as soon as the volume changed in one step.  The loss is at most the modulus
    times the sum of the squared volume changes, so it vanishes as the steps get small. -/
theorem C93_cycle {M : Material n nH} {c11 c12 c44 : ℝ} (hel : M.el = .cubic c11 c12 c44) (hK : 0 < M.eos.bulkMod)
    (hγ : M.eos.isothermal = true ∨ M.eos.gamma = 0) {N : ℕ} (t : Trajectory M N) (ht : Handed t)
    (h0 : (t.m 0).stress 6 = M.eos.bulkMod * (1 / (t.inp 0).vr 0 - 1)) (k : ℕ) (hk : k < N)
    (hcl : (t.inp k).vr 1 = (t.inp 0).vr 0) :
    ∃ loss, (t.m' k).eInt = (t.m 0).eInt + ∑ j ∈ Finset.range (k + 1), shapeWork t j - loss ∧ 0 ≤ loss ∧
      ((∃ j ≤ k, (t.inp j).vr 1 ≠ (t.inp j).vr 0) → 0 < loss) ∧
      ∀ vmin step : ℝ, 0 < vmin → (∀ j ≤ k, vmin ≤ (t.inp j).vr 0 ∧ vmin ≤ (t.inp j).vr 1 ∧
        |(t.inp j).vr 1 - (t.inp j).vr 0| ≤ step) →
        loss ≤ M.eos.bulkMod * step / vmin ^ 2 * ∑ j ∈ Finset.range (k + 1), |(t.inp j).vr 1 - (t.inp j).vr 0| := by
  have hN : ∀ j ∈ Finset.range (k + 1), j < N := fun j hj => by have := Finset.mem_range.1 hj; omega
  refine ⟨∑ j ∈ Finset.range (k + 1), jumpLoss M.eos.bulkMod ((t.inp j).vr 0) ((t.inp j).vr 1), ?_, ?_, ?_, ?_⟩
  · rw [C93_balance t ht k hk, hcl, sub_self, add_zero]
    congr 2
    refine Finset.sum_congr rfl fun j hj => ?_
    rw [warmPress_zero hel hγ t ht h0 j (hN j hj), zero_mul, sub_zero]
  · exact Finset.sum_nonneg fun j hj => jumpLoss_nonneg hK.le (ht.pos j (hN j hj)).1 (ht.pos j (hN j hj)).2
  · rintro ⟨j, hj, hne⟩
    exact Finset.sum_pos' (fun i hi => jumpLoss_nonneg hK.le (ht.pos i (hN i hi)).1 (ht.pos i (hN i hi)).2)
      ⟨j, Finset.mem_range.2 (by omega), jumpLoss_pos hK (ht.pos j (by omega)).1 (ht.pos j (by omega)).2 hne⟩
  · intro vmin step hv hb
    rw [Finset.mul_sum]
    refine Finset.sum_le_sum fun j hj => ?_
    obtain ⟨h1, h2, h3⟩ := hb j (by have := Finset.mem_range.1 hj; omega)
    have hp := ht.pos j (hN j hj)
    refine (jumpLoss_le hK.le hp.1 hp.2).trans ?_
    generalize (t.inp j).vr 0 = v at *
    generalize (t.inp j).vr 1 = v' at *
    have h4 : (v' - v) ^ 2 ≤ step * |v' - v| := by
      rw [← sq_abs, sq]; exact mul_le_mul_of_nonneg_right h3 (abs_nonneg _)
    have h5 : vmin ^ 2 ≤ v * v' := by rw [sq]; exact mul_le_mul h1 h2 hv.le hp.1.le
    have h6 : (v' - v) ^ 2 / (v * v') ≤ step * |v' - v| / vmin ^ 2 :=
      div_le_div₀ ((sq_nonneg _).trans h4) h4 (by positivity) h5
    calc M.eos.bulkMod * ((v' - v) ^ 2 / (v * v')) ≤ M.eos.bulkMod * (step * |v' - v| / vmin ^ 2) :=
          mul_le_mul_of_nonneg_left h6 hK.le
      _ = _ := by ring

/-! ### repeated cycles -/

/-- derivative of the pressure with respect to the energy: zero for the isothermal equation of state -/
noncomputable def warmGamma (s : Eos) : ℝ := if s.isothermal then 0 else s.gamma

theorem evalPT_fst (s : Eos) (v e : ℝ) : (s.evalPT v e).1 = s.bulkMod * (1 / v - 1) + warmGamma s * e := by
  unfold Eos.evalPT warmGamma
  split_ifs <;> simp

/-- even steps: the relative volume goes from one to `v`; odd steps: back; no change of shape, no spin -/
noncomputable def cycleInp (v tol : ℝ) (k : ℕ) : Inputs where
  dt := 1
  tol := tol
  d := 0
  w := 0
  vr := if k % 2 = 0 then ![1, v, v - 1, v - 1] else ![v, 1, 1 - v, 1 - v]

/-- internal energy after `j` cycles that begin without energy: modulus `K`, Grüneisen parameter `g` -/
noncomputable def cycleE (K g v : ℝ) : ℕ → ℝ
  | 0 => 0
  | j + 1 => (1 - ((v - 1) * g) ^ 2) * cycleE K g v j - K * (v - 1) ^ 2 / v

/-- internal energy after `k` steps -/
noncomputable def halfE (K g v : ℝ) (k : ℕ) : ℝ :=
  if k % 2 = 0 then cycleE K g v (k / 2) else (1 - (v - 1) * g) * cycleE K g v (k / 2)

/-- pressure after `k` steps -/
noncomputable def halfP (K g v : ℝ) (k : ℕ) : ℝ :=
  if k % 2 = 0 then g * halfE K g v k else K * (1 / v - 1) + g * halfE K g v k

theorem halfE_succ (K g : ℝ) {v : ℝ} (hv : 0 < v) (tol : ℝ) (k : ℕ) :
    halfE K g v k - (cycleInp v tol k).vr 3 * halfP K g v k = halfE K g v (k + 1) := by
  rcases Nat.mod_two_eq_zero_or_one k with h | h
  · have h1 : (k + 1) % 2 ≠ 0 := by omega
    have h2 : (k + 1) / 2 = k / 2 := by omega
    simp only [halfE, halfP, cycleInp, h, if_true, if_neg h1, h2]
    simp
    ring
  · have h0 : k % 2 ≠ 0 := by omega
    have h1 : (k + 1) % 2 = 0 := by omega
    have h2 : (k + 1) / 2 = k / 2 + 1 := by omega
    simp only [halfE, halfP, cycleInp, if_neg h0, h1, if_true, h2, cycleE]
    simp
    field_simp
    ring

theorem cycleInp_quiet {v tol A : ℝ} (hv : 0 < v) (ht : 0 ≤ tol) (hA : 0 < A) (k : ℕ) : Quiet A (cycleInp v tol k) := by
  have hd : devOfSvecP (0 : Fin 7 → ℝ) = 0 := by
    ext i j; fin_cases i <;> fin_cases j <;> simp [devOfSvecP]
  have hf : frob (devOfSvecP (0 : Fin 7 → ℝ)) = 0 := by rw [hd]; simp [frob, ddot]
  refine ⟨one_pos, ⟨?_, ?_⟩, ?_, ?_, rfl, ?_⟩
  · show (devOfSvecP (0 : Fin 7 → ℝ)).transpose = _
    simp [cycleInp, hd]
  · show (devOfSvecP (0 : Fin 7 → ℝ)).trace = 0
    simp [hd]
  · show frob (devOfSvecP (0 : Fin 7 → ℝ)) ≤ tol * A
    rw [hf]; positivity
  · show frob (devOfSvecP (0 : Fin 7 → ℝ)) < _
    rw [hf]; positivity
  · rcases Nat.mod_two_eq_zero_or_one k with h | h <;> simp [cycleInp, h, hv]

/-- **C93, refuted for cycles.** The wish that compressing a body without change of shape and letting it expand back
    conserves its energy is false: an unstressed cubic crystal, at rest for its kinetics, taken through any number of
    cycles of the volume by a solver that keeps its contract, keeps its state, and its energy after every cycle is given
    by the recursion of `cycleE`. -/
theorem C93_refuted_cycle {M : Material n nH} {c11 c12 c44 : ℝ} (hel : M.el = .cubic c11 c12 c44)
    (hc : c12 < c11 ∧ 0 < c44) (hcv : M.eos.cvav ≠ 0) {h : Vec nH} {A : ℝ} (hA : 0 < A)
    (hK : ∀ T, RestsAt M.kin h T A) (N : ℕ) {v tol : ℝ} (hv : 0 < v) (ht : 0 ≤ tol) (m₀ : Mem nH n)
    (hm : Relaxed h 0 m₀) (hp : m₀.stress 6 = 0) :
    ∃ t : Trajectory M (2 * N), (∀ k, Finds (t.X k).solver) ∧ t.inp = cycleInp v tol ∧ t.m 0 = m₀ ∧
      (∀ k, t.m (k + 1) = t.m' k) ∧ Handed t ∧
      ∀ j ≤ N, Relaxed h (cycleE M.eos.bulkMod (warmGamma M.eos) v j) (t.m (2 * j)) := by
  let out : ℕ → Mem nH n → Mem nH n := fun j m =>
    match getResponseSngl lazyExt M (cycleInp v tol j) m with
    | .ok m' => m'
    | _ => m
  let m : ℕ → Mem nH n := fun j => Nat.rec m₀ (fun j m => out j m) j
  set K := M.eos.bulkMod
  set g := warmGamma M.eos with hgd
  have key : ∀ k, Relaxed h (halfE K g v k) (m k) ∧ (m k).stress 6 = halfP K g v k := by
    intro k
    induction k with
    | zero =>
      refine ⟨?_, ?_⟩
      · show Relaxed h _ m₀
        simpa [halfE, cycleE] using hm
      · show m₀.stress 6 = _
        rw [hp]; simp [halfP, halfE, cycleE]
    | succ k ih =>
      obtain ⟨m', h1, h2⟩ := quiet_step hel hc hcv hA (hK _) (cycleInp_quiet hv ht hA k) ih.1
      have e : m (k + 1) = m' := by
        show out k (m k) = m'
        simp only [out, h1]
      rw [ih.2, halfE_succ K g hv tol k] at h2
      rw [e]
      refine ⟨h2, ?_⟩
      rw [C22_cubic _ M _ _ _ c11 c12 c44 hel h1, ih.1.energy, ih.2, halfE_succ K g hv tol k]
      rcases Nat.mod_two_eq_zero_or_one k with h3 | h3
      · have h4 : (k + 1) % 2 ≠ 0 := by omega
        simp [evalPT_fst, halfP, cycleInp, h3, h4, K, g]
      · have h4 : (k + 1) % 2 = 0 := by omega
        simp [evalPT_fst, halfP, cycleInp, h3, h4, g]
  refine ⟨{ X := fun _ => lazyExt, inp := cycleInp v tol, m := m, m' := fun j => m (j + 1), ok := ?_,
            link := fun _ _ => rfl },
    fun _ => orIdeal_finds (probe_sound 8), rfl, rfl, fun _ => rfl, ⟨fun _ _ => rfl, fun _ _ => rfl, ?_, ?_, ?_⟩, ?_⟩
  · intro k _
    obtain ⟨m', h1, -⟩ := quiet_step hel hc hcv hA (hK _) (cycleInp_quiet hv ht hA k) (key k).1
    show _ = Res.ok (out k (m k))
    simp only [out, h1]
  · intro k _
    rcases Nat.mod_two_eq_zero_or_one k with h3 | h3
    · have h4 : (k + 1) % 2 ≠ 0 := by omega
      simp [cycleInp, h3, h4]
    · have h4 : (k + 1) % 2 = 0 := by omega
      simp [cycleInp, h3, h4]
  · intro k _
    rcases Nat.mod_two_eq_zero_or_one k with h3 | h3 <;> simp [cycleInp, h3]
  · intro k _
    rcases Nat.mod_two_eq_zero_or_one k with h3 | h3 <;> simp [cycleInp, h3, hv]
  · intro j _
    have := (key (2 * j)).1
    simpa [halfE] using this

theorem cycleE_closed (K g v : ℝ) (h : (v - 1) * g ≠ 0) (hv : v ≠ 0) (j : ℕ) :
    cycleE K g v j = -(K / (v * g ^ 2)) * (1 - (1 - ((v - 1) * g) ^ 2) ^ j) := by
  have hg : g ≠ 0 := fun e => h (by rw [e, mul_zero])
  induction j with
  | zero => simp [cycleE]
  | succ j ih =>
    rw [cycleE, ih, pow_succ]
    field_simp
    ring

/-- **C93, below absolute zero.** However small the amplitude of the volume cycles is, after enough of them the
    temperature that the equation of state assigns to the crystal is negative, when the modulus over the squared Grüneisen
    parameter exceeds the thermal energy at the beginning. -/
theorem C93_refuted_cold (s : Eos) (hI : s.isothermal = false) (hcv : 0 < s.cvav) {v : ℝ} (hv : 0 < v) (hv1 : v ≠ 1)
    (hg : s.gamma ≠ 0) (hsm : ((v - 1) * s.gamma) ^ 2 ≤ 1) (hbig : -s.ec0 < s.bulkMod / (v * s.gamma ^ 2)) :
    ∃ J, ∀ j ≥ J, (s.evalPT 1 (cycleE s.bulkMod s.gamma v j)).2 < 0 := by
  have h0 : (v - 1) * s.gamma ≠ 0 := mul_ne_zero (sub_ne_zero.2 hv1) hg
  have hlim : Filter.Tendsto (fun j => cycleE s.bulkMod s.gamma v j) Filter.atTop
      (nhds (-(s.bulkMod / (v * s.gamma ^ 2)) * (1 - 0))) := by
    simp only [cycleE_closed _ _ _ h0 hv.ne']
    refine Filter.Tendsto.const_mul _ (Filter.Tendsto.const_sub _ ?_)
    have : 0 < ((v - 1) * s.gamma) ^ 2 := by positivity
    exact tendsto_pow_atTop_nhds_zero_of_lt_one (by linarith) (by linarith)
  have hlt : -(s.bulkMod / (v * s.gamma ^ 2)) * (1 - 0) < s.ec0 := by linarith
  obtain ⟨J, hJ⟩ := Filter.eventually_atTop.1 (hlim.eventually (gt_mem_nhds hlt))
  refine ⟨J, fun j hj => ?_⟩
  have := hJ j hj
  simp only [Eos.evalPT, hI, Eos.tK0, Eos.dtde0]
  have e : -s.ec0 * (1 / s.cvav) + cycleE s.bulkMod s.gamma v j * (1 / s.cvav)
      = (cycleE s.bulkMod s.gamma v j - s.ec0) * (1 / s.cvav) := by ring
  simp only [Bool.false_eq_true, if_false]
  rw [e]
  exact mul_neg_of_neg_of_pos (by linarith) (by positivity)

theorem voceA_rests {c : ℝ} (hc : 0 < c) (T : ℝ) : RestsAt testMatA.kin (fun _ => c) T 1 := by
  refine ⟨fun dt _ => ⟨1, voce_rest (testVoce false) rfl (by norm_num [testVoce]) (fun _ => c) dt⟩, fun p => ?_⟩
  refine ⟨c, c, ?_, ?_, fun s => ?_⟩
  · show (if 0 < c then Out.ok ((c : ℝ), (c : ℝ)) else .undef "assert(vals[0] > zero)") = Out.ok (c, c)
    exact if_pos hc
  · show 1 ≤ (testVoce false).gamW
    norm_num [testVoce]
  · show ((testVoce false).evalGdot c 0).gdot = 0
    unfold Voce.evalGdot
    simp only [zero_mul, abs_zero]
    split_ifs with h1 h2
    · exact absurd h2 (not_lt.2 (Real.rpow_nonneg (by unfold gamRatioOvf; positivity) _))
    · simp
    · rfl

theorem relaxed_testMem {c : ℝ} (E : ℝ) (hE : E = 0) :
    Relaxed (n := 12) (fun _ : Fin 1 => c) E (testMem (fun _ => c) 0 0 none) := by
  subst hE
  refine ⟨?_, ?_, ?_, ?_, fun _ _ => rfl, rfl, rfl⟩ <;> simp only [histOf, testMem, Hist.ofArray_toArray]
  · intro h; simpa using congrFun h 0

/-- **C93, refuted for the material of the tests.** The FCC crystal with power law and Voce hardening of the tests,
    without stress at 300 kelvin: after 40 cycles of the volume by one per cent, without any change of shape, its
    internal energy is below the energy of absolute zero. -/
theorem C93_refuted_test : ∃ t : Trajectory testMatA 80, (∀ k, Finds (t.X k).solver) ∧
    (∀ k, t.inp k = cycleInp (99 / 100) (1 / 10 ^ 10) k) ∧ (∀ k, t.m (k + 1) = t.m' k) ∧
    (testMatA.eos.evalPT 1 (t.m 0).eInt).2 = 300 ∧ (∀ i, (t.m 0).stress i = 0) ∧
    (testMatA.eos.evalPT 1 (t.m 80).eInt).2 < 0 := by
  obtain ⟨t, h1, h2, h3, h4, -, h5⟩ := C93_refuted_cycle (M := testMatA) (c11 := 3) (c12 := 1) (c44 := 1) rfl
    (by norm_num) (by norm_num [testMatA, testEos]) (h := fun _ => (1 / 1000 : ℝ)) one_pos (voceA_rests (by norm_num)) 40
    (v := 99 / 100) (tol := 1 / 10 ^ 10) (by norm_num) (by norm_num) _ (relaxed_testMem 0 rfl) rfl
  refine ⟨t, h1, fun k => by rw [h2], h4, ?_, fun i => by rw [h3]; rfl, ?_⟩
  · rw [h3]
    simp [testMatA, Eos.evalPT, Eos.tK0, Eos.dtde0, testEos, testMem]
    norm_num
  · have := (h5 40 le_rfl).energy
    change (t.m 80).eInt = _ at this
    rw [this]
    have hb : cycleE testMatA.eos.bulkMod (warmGamma testMatA.eos) (99 / 100) 40 < -(6 / 1000) := by
      rw [cycleE_closed _ _ _ (by norm_num [testMatA, testEos, warmGamma]) (by norm_num)]
      norm_num [testMatA, testEos, warmGamma]
    generalize cycleE testMatA.eos.bulkMod (warmGamma testMatA.eos) (99 / 100) 40 = E at hb
    simp [testMatA, Eos.evalPT, Eos.tK0, Eos.dtde0, testEos]
    linarith

/-- the hypotheses of `C93_refuted_cold` hold for the equation of state of the tests and any amplitude up to ten per
    cent -/
example (v : ℝ) (h1 : 9 / 10 ≤ v) (h2 : v ≤ 11 / 10) (h3 : v ≠ 1) : 0 < v ∧ v ≠ 1 ∧ (testEos (5 / 3)).gamma ≠ 0 ∧
    ((v - 1) * (testEos (5 / 3)).gamma) ^ 2 ≤ 1 ∧
    -(testEos (5 / 3)).ec0 < (testEos (5 / 3)).bulkMod / (v * (testEos (5 / 3)).gamma ^ 2) := by
  have hv : 0 < v := by linarith
  refine ⟨hv, h3, by norm_num [testEos], ?_, ?_⟩
  · have : (v - 1) * (testEos (5 / 3)).gamma = 17 / 10 * (v - 1) := by simp [testEos]; ring
    rw [this]; nlinarith
  · rw [lt_div_iff₀ (by simp only [testEos]; positivity)]
    simp only [testEos]
    linarith

/-- the hypotheses of `C93_balance` hold for the volume cycles of the tests' crystal, and those of `C93_cycle` for the
    same crystal with the isothermal equation of state -/
example (N : ℕ) : ∃ t : Trajectory testMatA (2 * N), Handed t ∧ ∀ k, (t.inp k).vr 1 ≠ (t.inp k).vr 0 := by
  obtain ⟨t, -, h2, -, -, h6, -⟩ := C93_refuted_cycle (M := testMatA) (c11 := 3) (c12 := 1) (c44 := 1) rfl
    (by norm_num) (by norm_num [testMatA, testEos]) (h := fun _ => (1 / 1000 : ℝ)) one_pos (voceA_rests (by norm_num)) N
    (v := 99 / 100) (tol := 1 / 10 ^ 10) (by norm_num) (by norm_num) _ (relaxed_testMem 0 rfl) rfl
  refine ⟨t, h6, fun k => ?_⟩
  rw [h2]
  rcases Nat.mod_two_eq_zero_or_one k with h | h <;> simp [cycleInp, h] <;> norm_num

example (N : ℕ) : ∃ (M : Material 12 1) (t : Trajectory M (2 * (N + 1))), M.el = .cubic 3 1 1 ∧ 0 < M.eos.bulkMod ∧
    M.eos.isothermal = true ∧ Handed t ∧ (t.m 0).stress 6 = M.eos.bulkMod * (1 / (t.inp 0).vr 0 - 1) ∧
    (t.inp (2 * N + 1)).vr 1 = (t.inp 0).vr 0 ∧ ∀ k, (t.inp k).vr 1 ≠ (t.inp k).vr 0 := by
  obtain ⟨t, -, h2, h3, -, h6, -⟩ := C93_refuted_cycle
    (M := { testMatA with eos := { testEos (5 / 3) with isothermal := true } }) (c11 := 3) (c12 := 1) (c44 := 1) rfl
    (by norm_num) (by norm_num [testEos]) (h := fun _ => (1 / 1000 : ℝ)) one_pos (voceA_rests (by norm_num)) (N + 1)
    (v := 99 / 100) (tol := 1 / 10 ^ 10) (by norm_num) (by norm_num) _ (relaxed_testMem 0 rfl) rfl
  refine ⟨_, t, rfl, by norm_num [testEos], rfl, h6, ?_, ?_, fun k => ?_⟩
  · rw [h2, h3]; simp [cycleInp, testMem]
  · rw [h2]; simp [cycleInp, Nat.add_mod]
  · rw [h2]
    rcases Nat.mod_two_eq_zero_or_one k with h | h <;> simp [cycleInp, h] <;> norm_num

end Ecm.Props
