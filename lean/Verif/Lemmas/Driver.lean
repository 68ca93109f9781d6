/- Helper lemmas about the main program of the example driver (Model/Driver.lean). -/
import Verif.Model.Driver
import Verif.Lemmas.Batch
import Verif.Lemmas.Miniapp
import Verif.Lemmas.Wrap

namespace Ecm
open Spec Classical

variable {n nH : ℕ}

/-- the arrays have the lengths for `N` points, and the longest ones can be indexed by an int -/
structure DrvFits (nsv N : ℕ) (m : DrvMem) : Prop where
  offState : nsv * N < 2 ^ 31
  offTan : 36 * N < 2 ^ 31
  state : m.state.len = nsv * N
  vgrad : m.vgrad.len = 9 * N
  stress : m.stress.len = 6 * N
  ddsdde : m.ddsdde.len = 36 * N
  engInt : m.engInt.len = N
  wVec : m.wVec.len = 3 * N
  volRatio : m.volRatio.len = 4 * N
  stressP : m.stressP.len = 7 * N
  dRate : m.dRate.len = 7 * N
  temp : m.temp.len = N
  sdd : m.sdd.len = 2 * N

theorem mul_add_le {s i N : ℕ} (h : i < N) : s * i + s ≤ s * N := by
  calc s * i + s = s * (i + 1) := by ring
    _ ≤ s * N := Nat.mul_le_mul_left _ h

theorem DrvFits.inside {nsv N i : ℕ} {m : DrvMem} (h : DrvFits nsv N m) (h2 : 2 ≤ nsv) (hi : i < N) :
    DrvInside nsv i m where
  two := h2
  offState := by have := mul_add_le (s := nsv) hi; have := h.offState; omega
  offTan := by have := h.offTan; omega
  state := by rw [h.state]; exact mul_add_le hi
  vgrad := by rw [h.vgrad]; omega
  stress := by rw [h.stress]; omega
  ddsdde := by rw [h.ddsdde]; omega
  engInt := by rw [h.engInt]; omega
  wVec := by rw [h.wVec]; omega
  volRatio := by rw [h.volRatio]; omega
  stressP := by rw [h.stressP]; omega
  dRate := by rw [h.dRate]; omega
  temp := by rw [h.temp]; omega

/-- what setup_data computes for point `i` -/
noncomputable def setupOf (dt : ℝ) (nsv : ℕ) (m : DrvMem) (i : ℕ) : Out DrvIn :=
  drvSetup dt (vgradOf m.vgrad i) (m.stress.win (6 * i) 6) (m.state.val (nsv * i + (nsv - 1 - 1)))
    (m.state.val (nsv * i + (nsv - 1)))

/-- `m1` is `m` after setup_data for the first `k` points -/
structure SetUp (dt : ℝ) (nsv k : ℕ) (m m1 : DrvMem) : Prop where
  state : m1.state = m.state
  vgrad : m1.vgrad = m.vgrad
  stress : m1.stress = m.stress
  sdd : m1.sdd = m.sdd
  fits : ∀ N, DrvFits nsv N m → DrvFits nsv N m1
  pts : ∀ i < k, ∃ a, setupOf dt nsv m i = .ok a ∧ m1.temp.val i = a.temp ∧
    m1.ddsdde.win (36 * i) 36 = winOfMat a.mtan ∧ m1.engInt.val i = a.eng ∧ m1.wVec.win (3 * i) 3 = a.w ∧
    m1.dRate.win (7 * i) 7 = a.d ∧ m1.volRatio.win (4 * i) 4 = a.vr ∧ m1.stressP.win (7 * i) 7 = a.stress

theorem put_one_self (b : Buf) (i : ℕ) (v : Vec 1) : (b.put i v).val i = v 0 := by
  have := Buf.put_val_in b i v 0
  simpa using this

theorem put_one_other (b : Buf) {i j : ℕ} (h : j ≠ i) (v : Vec 1) : (b.put i v).val j = b.val j :=
  Buf.put_val_out b i v j (by omega)

theorem win_put_point {s : ℕ} (b : Buf) {i j : ℕ} (h : j ≠ i) (v : Vec s) :
    (b.put (s * i) v).win (s * j) s = b.win (s * j) s :=
  Buf.win_put_disj b _ _ v (windows_apart le_rfl (Ne.symm h))

theorem setup_loop {dt : ℝ} {nsv N : ℕ} {m : DrvMem} (hf : DrvFits nsv N m) (h2 : 2 ≤ nsv) :
    ∀ k ≤ N, (∀ m1, outLoop (setupPoint dt nsv) k m = .ok m1 → SetUp dt nsv k m m1) ∧
      ((∀ i < k, ∃ a, setupOf dt nsv m i = .ok a) → ∃ m1, outLoop (setupPoint dt nsv) k m = .ok m1) := by
  intro k
  induction k with
  | zero =>
    intro _
    refine ⟨fun m1 h => ?_, fun _ => ⟨m, rfl⟩⟩
    cases h
    exact ⟨rfl, rfl, rfl, rfl, fun N h => h, fun i hi => absurd hi (Nat.not_lt_zero i)⟩
  | succ k ih =>
    intro hk
    obtain ⟨ih1, ih2⟩ := ih (by omega)
    have hpoint : ∀ m1, SetUp dt nsv k m m1 → ∀ r, setupPoint dt nsv k m1 = r →
        r = (setupOf dt nsv m k).bind fun a => .ok
          { m1 with
            temp := m1.temp.put (k := 1) k fun _ => a.temp
            ddsdde := m1.ddsdde.put (36 * k) (winOfMat a.mtan)
            engInt := m1.engInt.put (k := 1) k fun _ => a.eng
            wVec := m1.wVec.put (3 * k) a.w
            dRate := m1.dRate.put (7 * k) a.d
            volRatio := m1.volRatio.put (4 * k) a.vr
            stressP := m1.stressP.put (7 * k) a.stress } := by
      intro m1 hS r hr
      unfold setupPoint at hr
      rw [if_pos ((hS.fits N hf).inside h2 (by omega))] at hr
      rw [← hr]
      unfold setupOf
      rw [← hS.state, ← hS.vgrad, ← hS.stress]
    constructor
    · intro m2 h
      obtain ⟨m1, h1, h3⟩ := Out.bind_ok h
      have hS := ih1 m1 h1
      obtain ⟨a, ha, hm2⟩ := Out.bind_ok (hpoint m1 hS _ h3).symm
      cases hm2
      refine ⟨hS.state, hS.vgrad, hS.stress, hS.sdd, ?_, ?_⟩
      · intro N' hN'
        have := hS.fits N' hN'
        exact ⟨this.offState, this.offTan, this.state, this.vgrad, this.stress, this.ddsdde, this.engInt, this.wVec,
          this.volRatio, this.stressP, this.dRate, this.temp, this.sdd⟩
      · intro i hi
        rcases Nat.lt_succ_iff_lt_or_eq.1 hi with hi | rfl
        · obtain ⟨b, hb, b1, b2, b3, b4, b5, b6, b7⟩ := hS.pts i hi
          have hne : i ≠ k := by omega
          exact ⟨b, hb, (put_one_other m1.temp hne (fun _ => a.temp)).trans b1, (win_put_point _ hne _).trans b2,
            (put_one_other m1.engInt hne (fun _ => a.eng)).trans b3, (win_put_point _ hne _).trans b4, (win_put_point _ hne _).trans b5,
            (win_put_point _ hne _).trans b6, (win_put_point _ hne _).trans b7⟩
        · exact ⟨a, ha, put_one_self m1.temp i (fun _ => a.temp), Buf.win_put_same _ _ _,
            put_one_self m1.engInt i (fun _ => a.eng), Buf.win_put_same _ _ _,
            Buf.win_put_same _ _ _, Buf.win_put_same _ _ _, Buf.win_put_same _ _ _⟩
    · intro h
      obtain ⟨m1, h1⟩ := ih2 fun i hi => h i (by omega)
      obtain ⟨a, ha⟩ := h k (by omega)
      have hstep : outLoop (setupPoint dt nsv) (k + 1) m = setupPoint dt nsv k m1 := by
        show (outLoop (setupPoint dt nsv) k m).bind _ = _
        rw [h1]
        rfl
      rw [hpoint m1 (ih1 m1 h1) _ rfl, ha] at hstep
      exact ⟨_, hstep⟩

/-- `m2` is `m` after retrieve_data for the first `k` points -/
structure Retrieved (nsv k : ℕ) (m m2 : DrvMem) : Prop where
  same : m2 = { m with state := m2.state, stress := m2.stress }
  fits : ∀ N, DrvFits nsv N m → DrvFits nsv N m2
  rest : ∀ i, ∀ j < nsv - 1 - 1, m2.state.val (nsv * i + j) = m.state.val (nsv * i + j)
  pts : ∀ i < k, m2.state.val (nsv * i + (nsv - 1 - 1)) = m.volRatio.val (4 * i + 1) ∧
    m2.state.val (nsv * i + (nsv - 1)) = m.engInt.val i ∧
    m2.stress.win (6 * i) 6 = drvRetrieve (m.stressP.win (7 * i) 7)

theorem slot_ne {nsv i k j j' : ℕ} (hj : j < nsv) (hj' : j' < nsv) (h : i ≠ k ∨ j ≠ j') :
    nsv * i + j ≠ nsv * k + j' := by
  by_cases hik : i = k
  · subst hik
    rcases h with h | h
    · exact absurd rfl h
    · omega
  · rcases windows_apart (le_refl nsv) hik with h | h <;> omega

theorem retrieve_loop {nsv N : ℕ} {m : DrvMem} (hf : DrvFits nsv N m) (h2 : 2 ≤ nsv) :
    ∀ k ≤ N, ∃ m2, outLoop (retrievePoint nsv) k m = .ok m2 ∧ Retrieved nsv k m m2 := by
  intro k
  induction k with
  | zero => exact fun _ => ⟨m, rfl, rfl, fun N h => h, fun _ _ _ => rfl, fun i hi => absurd hi (Nat.not_lt_zero i)⟩
  | succ k ih =>
    intro hk
    obtain ⟨m1, h1, hR⟩ := ih (by omega)
    have hstep : outLoop (retrievePoint nsv) (k + 1) m = retrievePoint nsv k m1 := by
      show (outLoop (retrievePoint nsv) k m).bind _ = _
      rw [h1]
      rfl
    unfold retrievePoint at hstep
    rw [if_pos ((hR.fits N hf).inside h2 (by omega))] at hstep
    refine ⟨_, hstep, ?_⟩
    · have hsame := hR.same
      have hv : m1.volRatio = m.volRatio := by rw [hsame]
      have he : m1.engInt = m.engInt := by rw [hsame]
      have hs : m1.stressP = m.stressP := by rw [hsame]
      refine ⟨by rw [hsame], ?_, ?_, ?_⟩
      · intro N' hN'
        have := hR.fits N' hN'
        exact ⟨this.offState, this.offTan, this.state, this.vgrad, this.stress, this.ddsdde, this.engInt, this.wVec,
          this.volRatio, this.stressP, this.dRate, this.temp, this.sdd⟩
      · intro i j hj
        dsimp only
        rw [put_one_other _ (slot_ne (by omega) (by omega) (Or.inr (by omega))),
          put_one_other _ (slot_ne (by omega) (by omega) (Or.inr (by omega)))]
        exact hR.rest i j hj
      · intro i hi
        dsimp only
        rcases Nat.lt_succ_iff_lt_or_eq.1 hi with hi | rfl
        · have hne : i ≠ k := by omega
          rw [put_one_other _ (slot_ne (by omega) (by omega) (Or.inl hne)),
            put_one_other _ (slot_ne (by omega) (by omega) (Or.inl hne)),
            put_one_other _ (slot_ne (by omega) (by omega) (Or.inl hne)),
            put_one_other _ (slot_ne (by omega) (by omega) (Or.inl hne)), win_put_point _ hne]
          exact hR.pts i hi
        · rw [put_one_other _ (slot_ne (by omega) (by omega) (Or.inr (by omega))), put_one_self, put_one_self,
            Buf.win_put_same, hv, he, hs]
          exact ⟨rfl, rfl, rfl⟩

end Ecm
