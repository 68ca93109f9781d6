/- Property theorems C68: the effective plastic rate as output (option ECMECH_USE_DPEFF,
   src/ecmech/ECMech_evptn.h:665-669). -/
import Verif.Model.DPEff
import Verif.Props.Response
import Verif.Props.SlipGeom
import Verif.Props.Wrap

namespace Ecm.Props
open Ecm Spec Matrix

variable {n nH : ℕ}

/-- memories that agree except, possibly, in the first two history entries -/
def AgreeButFirstTwo (m1 m2 : Mem nH n) : Prop :=
  m1.eInt = m2.eInt ∧ m1.stress = m2.stress ∧ m1.tkelv = m2.tkelv ∧ m1.sdd = m2.sdd ∧
    m1.mtan = m2.mtan ∧ ∀ k, k.val ≠ 0 → k.val ≠ 1 → m1.hist k = m2.hist k

theorem runDP_ok {X : Ext} {M : Material n nH} {inp : Inputs} {m m1 : Mem nH n} {hU : Vec nH}
    {P : Updst n} (h : Step.runDP X M inp m hU P = .ok m1) :
    ∃ m2, Step.run X M inp m hU P = .ok m2 ∧
      m2 = { m1 with hist := (Step.newHist X inp (Hist.ofArray m.hist) hU P (Step.solve X inp P)
              m.mtan.isSome).toArray } ∧
      m1.hist = (Step.newHistDP X inp (Hist.ofArray m.hist) hU P (Step.solve X inp P)
              m.mtan.isSome).toArray := by
  unfold Step.runDP at h
  unfold Step.run
  simp only at h ⊢
  by_cases h1 : (Step.solve X inp P).converged = false
  · rw [if_pos h1] at h; simp at h
  rw [if_neg h1] at h ⊢
  cases h2 : Step.tangent X (Step.eosUpdate M inp m).bulkNew P (Step.solve X inp P).x
      m.mtan.isSome with
  | none => rw [h2] at h; simp at h
  | some t =>
    rw [h2] at h
    simp only at h ⊢
    cases h3 : M.el.getGmod with
    | undef w => rw [h3] at h; simp at h
    | fail s => rw [h3] at h; simp at h
    | ok g =>
      rw [h3] at h
      simp only [Res.ok.injEq] at h ⊢
      subst h
      exact ⟨_, rfl, rfl, rfl⟩

theorem run_ok_DP {X : Ext} {M : Material n nH} {inp : Inputs} {m m2 : Mem nH n} {hU : Vec nH}
    {P : Updst n} (h : Step.run X M inp m hU P = .ok m2) :
    ∃ m1, Step.runDP X M inp m hU P = .ok m1 := by
  unfold Step.run at h
  unfold Step.runDP
  simp only at h ⊢
  by_cases h1 : (Step.solve X inp P).converged = false
  · rw [if_pos h1] at h; simp at h
  rw [if_neg h1] at h ⊢
  cases h2 : Step.tangent X (Step.eosUpdate M inp m).bulkNew P (Step.solve X inp P).x
      m.mtan.isSome with
  | none => rw [h2] at h; simp at h
  | some t =>
    rw [h2] at h
    simp only at h ⊢
    cases h3 : M.el.getGmod with
    | undef w => rw [h3] at h; simp at h
    | fail s => rw [h3] at h; simp at h
    | ok g => exact ⟨_, rfl⟩

/-- the option changes nothing but the first two history entries: it succeeds exactly when the
    standard version does, with otherwise equal results -/
theorem C68_only_two (X : Ext) (M : Material n nH) (inp : Inputs) (m : Mem nH n) :
    (∀ m1, getResponseSnglDP X M inp m = .ok m1 →
      ∃ m2, getResponseSngl X M inp m = .ok m2 ∧ AgreeButFirstTwo m1 m2) ∧
    (∀ m2, getResponseSngl X M inp m = .ok m2 →
      ∃ m1, getResponseSnglDP X M inp m = .ok m1 ∧ AgreeButFirstTwo m1 m2) := by
  have hag : ∀ hU P (m1 m2 : Mem nH n), Step.runDP X M inp m hU P = .ok m1 →
      Step.run X M inp m hU P = .ok m2 → AgreeButFirstTwo m1 m2 := by
    intro hU P m1 m2 h1 h2
    obtain ⟨m3, e1, e2, e3⟩ := runDP_ok h1
    rw [h2] at e1
    cases e1
    subst e2
    refine ⟨rfl, rfl, rfl, rfl, rfl, fun k k0 k1 => ?_⟩
    rw [e3]
    simp only [Hist.toArray, if_neg k0, if_neg k1]
    rfl
  unfold getResponseSnglDP getResponseSngl
  cases h : Step.setup M inp m with
  | undef w => simp
  | fail s => simp
  | ok a =>
    obtain ⟨hU, P⟩ := a
    refine ⟨fun m1 h1 => ?_, fun m2 h2 => ?_⟩
    · obtain ⟨m2, e, -⟩ := runDP_ok h1
      exact ⟨m2, e, hag hU P m1 m2 h1 e⟩
    · obtain ⟨m1, e⟩ := run_ok_DP h2
      exact ⟨m1, e, hag hU P m1 m2 e h2⟩

/-- C68 failures with the option are those without it: the same message or undefined case, and what is
    left behind agrees but for the first two history entries -/
theorem C68_failures (X : Ext) (M : Material n nH) (inp : Inputs) (m : Mem nH n) :
    (∀ s m1, getResponseSnglDP X M inp m = .fail s m1 →
      ∃ m2, getResponseSngl X M inp m = .fail s m2 ∧ AgreeButFirstTwo m1 m2) ∧
    (∀ s m2, getResponseSngl X M inp m = .fail s m2 →
      ∃ m1, getResponseSnglDP X M inp m = .fail s m1 ∧ AgreeButFirstTwo m1 m2) ∧
    (∀ w, getResponseSnglDP X M inp m = .undef w ↔ getResponseSngl X M inp m = .undef w) := by
  have refl : ∀ m1 : Mem nH n, AgreeButFirstTwo m1 m1 := fun m1 => ⟨rfl, rfl, rfl, rfl, rfl, fun _ _ _ => rfl⟩
  have key : (∃ w, getResponseSnglDP X M inp m = .undef w ∧ getResponseSngl X M inp m = .undef w) ∨
      (∃ m1 m2, getResponseSnglDP X M inp m = .ok m1 ∧ getResponseSngl X M inp m = .ok m2) ∨
      ∃ s m1 m2, getResponseSnglDP X M inp m = .fail s m1 ∧ getResponseSngl X M inp m = .fail s m2 ∧
        AgreeButFirstTwo m1 m2 := by
    unfold getResponseSnglDP getResponseSngl
    cases Step.setup M inp m with
    | undef w => exact .inl ⟨w, rfl, rfl⟩
    | fail s => exact .inr (.inr ⟨_, _, _, rfl, rfl, refl _⟩)
    | ok a =>
      obtain ⟨hU, P⟩ := a
      simp only [Step.runDP, Step.run]
      by_cases h1 : (Step.solve X inp P).converged = false
      · simp only [if_pos h1]; exact .inr (.inr ⟨_, _, _, rfl, rfl, refl _⟩)
      simp only [if_neg h1]
      cases Step.tangent X (Step.eosUpdate M inp m).bulkNew P (Step.solve X inp P).x m.mtan.isSome with
      | none => exact .inr (.inr ⟨_, _, _, rfl, rfl, refl _⟩)
      | some t =>
        cases M.el.getGmod with
        | undef w => exact .inl ⟨w, rfl, rfl⟩
        | ok g => exact .inr (.inl ⟨_, _, rfl, rfl⟩)
        | fail s =>
          refine .inr (.inr ⟨_, _, _, rfl, rfl, rfl, rfl, rfl, rfl, rfl, fun k k0 k1 => ?_⟩)
          simp only [Hist.toArray, if_neg k0, if_neg k1]
          rfl
  rcases key with ⟨w, a, b⟩ | ⟨m1, m2, a, b⟩ | ⟨s, m1, m2, a, b, c⟩
  · rw [a, b]; simp
  · rw [a, b]; simp
  · rw [a, b]
    refine ⟨fun s' m' h => ?_, fun s' m' h => ?_, fun w => by simp⟩ <;> cases h
    · exact ⟨m2, rfl, c⟩
    · exact ⟨m1, rfl, c⟩

/-- the effective rate √(2/3 D:D) of a tensor -/
noncomputable def effRate (D : T3) : ℝ := Real.sqrt (2 / 3 * ddot D D)

theorem dp_isDev {n : ℕ} (ms ss : Fin n → Vec 3) (ho : ∀ i, dot (ms i) (ss i) = 0) (g : Vec n) :
    IsDev (sym (slipGrad g ss ms)) := by
  refine ⟨sym_isSymm _, ?_⟩
  have hs : ∀ a b, slipGrad g ss ms a b = ∑ i, g i * (ss i a * ms i b) := by
    intro a b; simp [slipGrad, Matrix.sum_apply, dyad]
  have : (sym (slipGrad g ss ms)).trace = ∑ i, g i * dot (ms i) (ss i) := by
    simp only [Matrix.trace, Matrix.diag, sym, Fin.sum_univ_three, hs, dot, Matrix.smul_apply,
      Matrix.add_apply, Matrix.transpose_apply, smul_eq_mul, ← Finset.sum_add_distrib,
      Finset.mul_sum]
    exact Finset.sum_congr rfl fun i _ => by ring
  rw [this]
  exact Finset.sum_eq_zero fun i _ => by rw [ho i, mul_zero]

theorem DP_hist {X : Ext} {M : Material n nH} {inp : Inputs} {m m1 : Mem nH n}
    (h : getResponseSnglDP X M inp m = .ok m1) :
    ∃ (P : Updst n) (x : Vec 8), P.geom = M.geom ∧ (histOf m1).shrateEff = P.dpEff x ∧
      (histOf m1).shrEff = (histOf m).shrEff + inp.dt * (histOf m1).shrateEff ∧
      (histOf m1).gdot = P.gdot x := by
  unfold getResponseSnglDP at h
  cases h1 : Step.setup M inp m with
  | undef w => simp [h1] at h
  | fail s => simp [h1] at h
  | ok a =>
    obtain ⟨hU, P⟩ := a
    simp only [h1] at h
    obtain ⟨-, -, -, e⟩ := runDP_ok h
    obtain ⟨kU, v, sc, -, -, -, -, -, -, hP⟩ := Step.setup_ok h1
    refine ⟨P, Step.lastX (Step.solve X inp P) m.mtan.isSome, by rw [hP], ?_⟩
    unfold histOf
    rw [e, Hist.ofArray_toArray]
    refine ⟨rfl, ?_, rfl⟩
    simp only [Step.newHistDP]; ring

/-- C68 one update with the option: the first entry is √(2/3 D:D) of the plastic deformation rate of
    the returned slip rates, the second grows by it times the time step. -/
theorem C68_rate (X : Ext) (M : Material n nH) (ms ss : Fin n → Vec 3)
    (hgeom : M.geom = slipPQ ms ss) (ho : ∀ i, dot (ms i) (ss i) = 0) (inp : Inputs)
    (m m1 : Mem nH n) (h : getResponseSnglDP X M inp m = .ok m1) :
    (histOf m1).shrateEff = effRate (sym (slipGrad (histOf m1).gdot ss ms)) ∧
    (histOf m1).shrEff = (histOf m).shrEff + inp.dt * (histOf m1).shrateEff := by
  obtain ⟨P, x, hP, e1, e2, e3⟩ := DP_hist h
  refine ⟨?_, e2⟩
  rw [e1, e3, Updst.dpEff, hP, hgeom, C18_plastic_rate]
  exact C02_effective_rate _ (dp_isDev ms ss ho _)

theorem ddot_dyad_sym (a b : V3) (ha : dot a a = 1) (hb : dot b b = 1) (hab : dot a b = 0)
    (T : T3) : |ddot T (sym (dyad a b))| ≤ Real.sqrt (1 / 2 * ddot T T) := by
  have hS : ddot (sym (dyad a b)) (sym (dyad a b)) = 1 / 2 := by
    simp only [dot, Fin.sum_univ_three] at ha hb hab
    simp only [ddot, sym, dyad, Fin.sum_univ_three, Matrix.smul_apply, Matrix.add_apply,
      Matrix.transpose_apply, Matrix.vecMulVec_apply, smul_eq_mul]
    have e : (a 0 * a 0 + a 1 * a 1 + a 2 * a 2) * (b 0 * b 0 + b 1 * b 1 + b 2 * b 2)
      + (a 0 * b 0 + a 1 * b 1 + a 2 * b 2) ^ 2 = 1 := by rw [ha, hb, hab]; norm_num
    linear_combination (1 / 2) * e
  apply Real.abs_le_sqrt
  have cs : ddot T (sym (dyad a b)) ^ 2 ≤ ddot T T * ddot (sym (dyad a b)) (sym (dyad a b)) := by
    have := Finset.sum_mul_sq_le_sq_mul_sq Finset.univ (fun p : Fin 3 × Fin 3 => T p.1 p.2)
      (fun p => sym (dyad a b) p.1 p.2)
    simp only [Fintype.sum_prod_type] at this
    simpa [ddot, pow_two] using this
  rw [hS] at cs
  linarith

/-- the effective plastic rate is at most the sum of the slip rates divided by √3 -/
theorem effRate_le {n : ℕ} (ms ss : Fin n → Vec 3) (hs : ∀ i, IsSlipSystem (ms i) (ss i)) (g : Vec n) :
    effRate (sym (slipGrad g ss ms)) ≤ (∑ i, |g i|) / Real.sqrt 3 := by
  set D := sym (slipGrad g ss ms) with hD
  have hsum : ddot D D = ∑ i, g i * ddot D (sym (dyad (ss i) (ms i))) := by
    have : D = ∑ i, g i • sym (dyad (ss i) (ms i)) := by
      rw [hD]
      ext a b
      simp only [sym, slipGrad, Matrix.smul_apply, Matrix.add_apply, Matrix.transpose_apply,
        Matrix.sum_apply, smul_eq_mul, ← Finset.sum_add_distrib, Finset.mul_sum]
      exact Finset.sum_congr rfl fun i _ => by ring
    conv_lhs => rw [show ddot D D = ddot D (∑ i, g i • sym (dyad (ss i) (ms i))) by rw [← this]]
    simp only [ddot, Matrix.sum_apply, Matrix.smul_apply, smul_eq_mul, Finset.mul_sum,
      Fin.sum_univ_three, ← Finset.sum_add_distrib]
    exact Finset.sum_congr rfl fun i _ => by ring
  have h0 : 0 ≤ ddot D D := by
    simp only [ddot, Fin.sum_univ_three]; nlinarith [mul_self_nonneg (D 0 0), mul_self_nonneg (D 0 1),
      mul_self_nonneg (D 0 2), mul_self_nonneg (D 1 0), mul_self_nonneg (D 1 1),
      mul_self_nonneg (D 1 2), mul_self_nonneg (D 2 0), mul_self_nonneg (D 2 1),
      mul_self_nonneg (D 2 2)]
  have hle : ddot D D ≤ (∑ i, |g i|) * Real.sqrt (1 / 2 * ddot D D) := by
    conv_lhs => rw [hsum]
    rw [Finset.sum_mul]
    refine Finset.sum_le_sum fun i _ => ?_
    refine (le_abs_self _).trans ?_
    rw [abs_mul]
    obtain ⟨h1, h2, h3⟩ := hs i
    exact mul_le_mul_of_nonneg_left (ddot_dyad_sym _ _ h2 h1 (by simpa [dot, mul_comm] using h3) D)
      (abs_nonneg _)
  set r := Real.sqrt (ddot D D) with hr
  have hrr : ddot D D = r * r := (Real.mul_self_sqrt h0).symm
  have hr0 : 0 ≤ r := Real.sqrt_nonneg _
  rw [Real.sqrt_mul (by norm_num), ← hr] at hle
  unfold effRate
  rw [Real.sqrt_mul (by norm_num), ← hr, le_div_iff₀ (by positivity)]
  have e3 : Real.sqrt (2 / 3) * Real.sqrt 3 = Real.sqrt 2 := by
    rw [← Real.sqrt_mul (by norm_num)]; norm_num
  have e4 : Real.sqrt (1 / 2) * Real.sqrt 2 = 1 := by
    rw [← Real.sqrt_mul (by norm_num)]; norm_num
  have hS : 0 ≤ ∑ i, |g i| := Finset.sum_nonneg fun i _ => abs_nonneg _
  calc Real.sqrt (2 / 3) * r * Real.sqrt 3 = Real.sqrt 2 * r := by rw [← e3]; ring
    _ ≤ ∑ i, |g i| := by
      rcases hr0.lt_or_eq with hp | hp
      · have h5 : r ≤ (∑ i, |g i|) * Real.sqrt (1 / 2) := by
          have : r * r ≤ ((∑ i, |g i|) * Real.sqrt (1 / 2)) * r := by
            rw [← hrr]; linarith
          exact le_of_mul_le_mul_right this hp
        calc Real.sqrt 2 * r ≤ Real.sqrt 2 * ((∑ i, |g i|) * Real.sqrt (1 / 2)) :=
              mul_le_mul_of_nonneg_left h5 (Real.sqrt_nonneg _)
          _ = (∑ i, |g i|) * (Real.sqrt (1 / 2) * Real.sqrt 2) := by ring
          _ = _ := by rw [e4, mul_one]
      · rw [← hp, mul_zero]; exact hS

/-- `N` successful updates with the option -/
structure TrajectoryDP (M : Material n nH) (N : ℕ) where
  X : ℕ → Ext
  inp : ℕ → Inputs
  m : ℕ → Mem nH n
  m' : ℕ → Mem nH n
  ok : ∀ k < N, getResponseSnglDP (X k) M (inp k) (m k) = .ok (m' k)
  link : ∀ k, k + 1 < N → (m (k + 1)).hist = (m' k).hist

/-- C68 any number of updates: the equivalent plastic strain is the time integral of the effective
    plastic rate, never decreases, and grows by at most the accumulated slip divided by √3. -/
theorem C68_history {M : Material n nH} {N : ℕ} (T : TrajectoryDP M N) (ms ss : Fin n → Vec 3)
    (hgeom : M.geom = slipPQ ms ss) (hs : ∀ i, IsSlipSystem (ms i) (ss i))
    (hdt : ∀ k < N, 0 ≤ (T.inp k).dt) (k : ℕ) (hk : k < N) :
    (histOf (T.m' k)).shrEff = (histOf (T.m 0)).shrEff + ∑ j ∈ Finset.range (k + 1),
      (T.inp j).dt * effRate (sym (slipGrad (histOf (T.m' j)).gdot ss ms)) ∧
    (histOf (T.m k)).shrEff ≤ (histOf (T.m' k)).shrEff ∧
    (histOf (T.m' k)).shrEff - (histOf (T.m 0)).shrEff ≤ (∑ j ∈ Finset.range (k + 1),
      (T.inp j).dt * ∑ i, |(histOf (T.m' j)).gdot i|) / Real.sqrt 3 := by
  have ho : ∀ i, dot (ms i) (ss i) = 0 := fun i => (hs i).2.2
  have hstep : ∀ j < N, (histOf (T.m' j)).shrEff = (histOf (T.m j)).shrEff
      + (T.inp j).dt * effRate (sym (slipGrad (histOf (T.m' j)).gdot ss ms)) := fun j hj => by
    obtain ⟨a, b⟩ := C68_rate _ _ ms ss hgeom ho _ _ _ (T.ok j hj)
    rw [b, a]
  have key : ∀ k < N, (histOf (T.m' k)).shrEff = (histOf (T.m 0)).shrEff
      + ∑ j ∈ Finset.range (k + 1),
        (T.inp j).dt * effRate (sym (slipGrad (histOf (T.m' j)).gdot ss ms)) := by
    intro k
    induction k with
    | zero => intro hk; rw [hstep 0 hk]; simp
    | succ k ih =>
      intro hk
      have h3 : (histOf (T.m (k + 1))).shrEff = (histOf (T.m' k)).shrEff := by
        unfold histOf; rw [T.link k hk]
      rw [hstep _ hk, h3, ih (by omega), Finset.sum_range_succ _ (k + 1)]; ring
  refine ⟨key k hk, ?_, ?_⟩
  · rw [hstep k hk]
    have : 0 ≤ (T.inp k).dt * effRate (sym (slipGrad (histOf (T.m' k)).gdot ss ms)) :=
      mul_nonneg (hdt k hk) (Real.sqrt_nonneg _)
    linarith
  · rw [key k hk, add_sub_cancel_left, Finset.sum_div]
    refine Finset.sum_le_sum fun j hj => ?_
    rw [Finset.mem_range] at hj
    rw [mul_div_assoc]
    exact mul_le_mul_of_nonneg_left (effRate_le ms ss hs _) (hdt j (by omega))

/-- the example step succeeds with the option -/
example (e : Vec 5) : ∃ m1, getResponseSnglDP exExt (exMat exEl) (exInp exEl e) (exMem e none)
    = .ok m1 := by
  obtain ⟨m2, h⟩ := ex_ok exEl exEl_pos e none
  obtain ⟨m1, h1, -⟩ := (C68_only_two _ _ _ _).2 m2 h
  exact ⟨m1, h1⟩

example : (exMat exEl).geom = slipPQ fccM fccS ∧ (∀ i, IsSlipSystem (fccM i) (fccS i)) ∧
    (∀ e, 0 ≤ (exInp exEl e).dt) := ⟨rfl, fcc_slip, fun e => by norm_num [exInp]⟩

/-- C68: with the option the first two history variables are described by the names of what they then hold, all other
    entries, all initial values and the number of entries are those of the description without it, and for every
    shipped model no two names are the same -/
theorem C68_names (info : List HistEntry) (n : ℕ) :
    (entry (histDescDP info n) 0).name = "dplas_eff" ∧ (entry (histDescDP info n) 1).name = "eps" ∧
    (histDescDP info n).length = (histDesc info n).length ∧
    (∀ i, 2 ≤ i → entry (histDescDP info n) i = entry (histDesc info n) i) ∧
    (∀ i, (entry (histDescDP info n) i).init = (entry (histDesc info n) i).init) ∧
    ∀ (c : Case) (S : Solver 1) (kl : List ℝ) (k : Kin c.type.nslip c.type.nH), kl.length = c.type.kinN →
      c.type.setKin S kl = .ok (k, info) → n = c.type.nslip →
      ((histDescDP info n).map HistEntry.name).Nodup := by
  have hs : ∃ l, histDesc info n = ⟨"shrate_eff", 0, true, true⟩ :: ⟨"shr_eff", 0, true, true⟩ :: l := ⟨_, rfl⟩
  have hc : ((histDescDP info n).map HistEntry.name) =
      ["dplas_eff", "eps"] ++ ((histDesc info n).map HistEntry.name).drop 2 := by
    rw [histDescDP, List.map_append, List.map_drop]
    rfl
  refine ⟨rfl, rfl, ?_, ?_, ?_, ?_⟩
  · obtain ⟨l, e⟩ := hs
    rw [histDescDP, e]
    rfl
  · intro i hi
    obtain ⟨l, e⟩ := hs
    obtain ⟨j, rfl⟩ := Nat.exists_eq_add_of_le' hi
    rw [histDescDP, e]
    rfl
  · intro i
    obtain ⟨l, e⟩ := hs
    rw [histDescDP, e]
    match i with
    | 0 => rfl
    | 1 => rfl
    | j + 2 => rfl
  · intro c S kl k hk hK hn
    rw [hc, hn, case_info c S kl hk hK, histDesc_names]
    cases c <;> simp only [List.map_cons, List.map_nil, Case.type] <;> decide +kernel

/-- the description of an FCC model with Voce hardening: 26 entries, the last hardness variable in place 13 -/
example : (histDescDP [⟨"h", 3, true, true⟩] 12).length = 26 ∧
    (entry (histDescDP [⟨"h", 3, true, true⟩] 12) 13).name = "h" ∧
    (entry (histDescDP [⟨"h", 3, true, true⟩] 12) 1).name = "eps" := by
  refine ⟨?_, rfl, rfl⟩
  rw [(C68_names _ _).2.2.1, histDesc_length]
  rfl

/-- everything in an entry but its name -/
def unnamed (e : HistEntry) : ℝ × Bool × Bool := (e.init, e.plot, e.state)

/-- C68: the single-point object of the Python module describes its history, with the option or without it, as the models do but
    for the names: the same number of entries in the same order with the same initial values and flags, and the entries of
    the slip law are the same with their names.  No two names of a shipped model are the same, and the option changes only
    the first two. -/
theorem C68_names_dev (info : List HistEntry) (n : ℕ) :
    (devHistDesc info n).map unnamed = (histDesc info n).map unnamed ∧
    (devHistDescDP info n).map unnamed = (histDescDP info n).map unnamed ∧
    ((devHistDesc info n).drop 13).take info.length = info ∧ ((histDesc info n).drop 13).take info.length = info ∧
    (entry (devHistDescDP info n) 0).name = "effective_plastic_deformation_rate" ∧
    (entry (devHistDescDP info n) 1).name = "effective_plastic_strain" ∧
    (devHistDescDP info n).drop 2 = (devHistDesc info n).drop 2 ∧
    ∀ (c : Case) (S : Solver 1) (kl : List ℝ) (k : Kin c.type.nslip c.type.nH), kl.length = c.type.kinN →
      c.type.setKin S kl = .ok (k, info) → n = c.type.nslip →
      ((devHistDesc info n).map HistEntry.name).Nodup ∧ ((devHistDescDP info n).map HistEntry.name).Nodup := by
  have h1 : (devHistDesc info n).map unnamed = (histDesc info n).map unnamed := by
    simp only [devHistDesc, histDesc, List.map_append, List.map_map, List.map_cons, List.map_nil]
    rfl
  have hn : (devHistDesc info n).map HistEntry.name =
      ["effective_shearing_rate", "effective_shearing", "flow_strength", "n_function_evals"]
      ++ (List.range 5).map (fun i => "deviatoric_elastic_strain_" ++ toString (i + 1))
      ++ (List.range 4).map (fun i => "quat_" ++ toString (i + 1)) ++ info.map HistEntry.name
      ++ (List.range n).map (fun i => "shearing_rate_" ++ toString (i + 1)) := by
    simp only [devHistDesc, List.map_append, List.map_map, List.map_cons, List.map_nil]
    rfl
  have hc : ((devHistDescDP info n).map HistEntry.name) =
      ["effective_plastic_deformation_rate", "effective_plastic_strain"]
      ++ ((devHistDesc info n).map HistEntry.name).drop 2 := by
    rw [devHistDescDP, List.map_append, List.map_drop]
    rfl
  refine ⟨h1, ?_, ?_, ?_, rfl, rfl, rfl, ?_⟩
  · rw [devHistDescDP, histDescDP, List.map_append, List.map_append, List.map_drop, List.map_drop, h1]
    rfl
  · have : (devHistDesc info n).drop 13 = info ++ (List.range n).map
        (fun i => (⟨"shearing_rate_" ++ toString (i + 1), 0, true, true⟩ : HistEntry)) := by
      rw [devHistDesc, List.append_assoc]
      rfl
    rw [this, List.take_left]
  · have : ∃ l, (histDesc info n).drop 13 = info ++ l := by
      rw [histDesc, List.append_assoc]
      exact ⟨_, rfl⟩
    obtain ⟨l, this⟩ := this
    rw [this, List.take_left]
  · intro c S kl k hk hK hs
    rw [hc, hn, hs, case_info c S kl hk hK]
    constructor <;> cases c <;> simp only [List.map_cons, List.map_nil, Case.type] <;> decide +kernel

/-- the slip law of an FCC model with Voce hardening: its entry is in place 13 -/
example : (devHistDescDP [⟨"h", 3, true, true⟩] 12).map unnamed = (histDescDP [⟨"h", 3, true, true⟩] 12).map unnamed ∧
    (entry (devHistDescDP [⟨"h", 3, true, true⟩] 12) 13).name = "h" := ⟨(C68_names_dev _ _).2.1, rfl⟩

end Ecm.Props
