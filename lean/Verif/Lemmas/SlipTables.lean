/- Helper lemmas: distinctness and completeness of the cubic slip system tables. -/
import Verif.Lemmas.SlipGeom

namespace Ecm
open Spec Matrix

theorem bcc12_slip : ∀ i, IsSlipSystem (bccM12 i) (bccS12 i) := bccBase_slip
theorem bcc24_slip : ∀ i, IsSlipSystem (bccM24 i) (bccS24 i) := slip_append bccBase_slip bccPGa_slip
theorem bcc48_slip : ∀ i, IsSlipSystem (bccM48 i) (bccS48 i) := slip_append bcc24_slip bccPGb_slip

theorem fcc_distinct : ∀ i j, i ≠ j → ¬ SameSystem (fccM i) (fccS i) (fccM j) (fccS j) :=
  distinct_of_int (fam := fun _ => (0 : Fin 1)) (cm := fun _ => sqr3i) (cs := fun _ => sqr2i)
    (Dm := fun _ => 1) (Ds := fun _ => 1) (mI := i111) (sI := i110)
    (fun i k => by rw [fccM_int, one_mul]) (fun i k => by rw [fccS_int, one_mul])
    (fun _ => sqr3i_pos) (fun _ => sqr2i_pos) (fun _ => one_pos) (fun _ => one_pos)
    (fun i => ne_zero_of_unit (fcc_slip i).1) (fun i => ne_zero_of_unit (fcc_slip i).2.1)
    (by decide +kernel)

/-- families of the 48 BCC systems -/
def bccFam : Fin 48 → Fin 3 :=
  Fin.append (Fin.append (fun _ : Fin 12 => (0 : Fin 3)) (fun _ : Fin 12 => 1)) (fun _ : Fin 24 => 2)
/-- integer normals of the 48 BCC systems -/
def bccMI : Fin 48 → Fin 3 → ℤ := Fin.append (Fin.append i110 i112) i123
/-- integer directions of the 48 BCC systems -/
def bccSI : Fin 48 → Fin 3 → ℤ := Fin.append (Fin.append i111 i111) i111b
/-- factors of the normals -/
noncomputable def bccCm : Fin 3 → ℝ := ![sqr2i, sqr6i, 1 / Real.sqrt 14]

theorem bccM48_int : IntForm bccM48 bccFam bccCm (fun _ => 1) bccMI := by
  intro i k
  refine Fin.addCases (m := 24) (n := 24) (fun i => ?_) (fun i => ?_) i
  · refine Fin.addCases (m := 12) (n := 12) (fun i => ?_) (fun i => ?_) i
    · simp [-Fin.natAdd_eq_addNat, bccM48, bccM24, bccFam, bccMI, bccCm, bccBaseM_int]
    · simp [-Fin.natAdd_eq_addNat, bccM48, bccM24, bccFam, bccMI, bccCm, bccPGaM_int]
  · simp [-Fin.natAdd_eq_addNat, bccM48, bccFam, bccMI, bccCm, bccPGbM_int]

theorem bccS48_int : IntForm bccS48 bccFam (fun _ => sqr3i) (fun _ => 1) bccSI := by
  intro i k
  refine Fin.addCases (m := 24) (n := 24) (fun i => ?_) (fun i => ?_) i
  · refine Fin.addCases (m := 12) (n := 12) (fun i => ?_) (fun i => ?_) i
    · simp [-Fin.natAdd_eq_addNat, bccS48, bccS24, bccSI, bccBaseS_int]
    · simp [-Fin.natAdd_eq_addNat, bccS48, bccS24, bccSI, bccPGaS_int]
  · simp [-Fin.natAdd_eq_addNat, bccS48, bccSI, bccPGbS_int]

theorem bccCm_pos (a : Fin 3) : 0 < bccCm a := by
  fin_cases a
  · exact sqr2i_pos
  · exact sqr6i_pos
  · exact sqr14i_pos

theorem bcc48_distinct : ∀ i j, i ≠ j →
    ¬ SameSystem (bccM48 i) (bccS48 i) (bccM48 j) (bccS48 j) :=
  distinct_of_int bccM48_int bccS48_int bccCm_pos (fun _ => sqr3i_pos) (fun _ => one_pos)
    (fun _ => one_pos) (fun i => ne_zero_of_unit (bcc48_slip i).1)
    (fun i => ne_zero_of_unit (bcc48_slip i).2.1) (by decide +kernel)

theorem bcc24_distinct : ∀ i j, i ≠ j →
    ¬ SameSystem (bccM24 i) (bccS24 i) (bccM24 j) (bccS24 j) := by
  intro i j hij h
  apply bcc48_distinct (Fin.castAdd 24 i) (Fin.castAdd 24 j)
    (fun e => hij (Fin.castAdd_injective _ _ e))
  simpa [bccM48, bccS48] using h

theorem bcc12_distinct : ∀ i j, i ≠ j →
    ¬ SameSystem (bccM12 i) (bccS12 i) (bccM12 j) (bccS12 j) := by
  intro i j hij h
  apply bcc24_distinct (Fin.castAdd 12 i) (Fin.castAdd 12 j)
    (fun e => hij (Fin.castAdd_injective _ _ e))
  simpa [bccM24, bccS24, bccM12, bccS12] using h

theorem bcc12_closed (σ : Equiv.Perm (Fin 3)) (ε : Fin 3 → ℤˣ) :
    ClosedUnder (cubicOp σ ε) bccM12 bccS12 :=
  cubic_closed bccBaseM_int bccBaseS_int bccBase_closedI σ ε
theorem bcc24_closed (σ : Equiv.Perm (Fin 3)) (ε : Fin 3 → ℤˣ) :
    ClosedUnder (cubicOp σ ε) bccM24 bccS24 :=
  closedUnder_append (bcc12_closed σ ε) (cubic_closed bccPGaM_int bccPGaS_int bccPGa_closedI σ ε)
theorem bcc48_closed (σ : Equiv.Perm (Fin 3)) (ε : Fin 3 → ℤˣ) :
    ClosedUnder (cubicOp σ ε) bccM48 bccS48 :=
  closedUnder_append (bcc24_closed σ ε) (cubic_closed bccPGbM_int bccPGbS_int bccPGb_closedI σ ε)

/-! ### Completeness -/

/-- integer member of the family <p q r> -/
def famI (x : Fin 3 → ℤ) (a b c : Fin 3) (e f g : Bool) : Fin 3 → ℤ :=
  ![(if e then 1 else -1) * x a, (if f then 1 else -1) * x b, (if g then 1 else -1) * x c]

/-- every orthogonal pair of the two families is in the integer tables up to signs -/
def CompleteI {n : ℕ} (x y : Fin 3 → ℤ) (mI sI : Fin n → Fin 3 → ℤ) : Prop :=
  ∀ a b c : Fin 3, a ≠ b → a ≠ c → b ≠ c → ∀ e f g : Bool,
  ∀ a' b' c' : Fin 3, a' ≠ b' → a' ≠ c' → b' ≠ c' → ∀ e' f' g' : Bool,
    dotI (famI x a b c e f g) (famI y a' b' c' e' f' g') = 0 → ∃ i : Fin n,
    ((∀ p, famI x a b c e f g p = mI i p) ∨ (∀ p, famI x a b c e f g p = -mI i p)) ∧
    ((∀ p, famI y a' b' c' e' f' g' p = sI i p) ∨ (∀ p, famI y a' b' c' e' f' g' p = -sI i p))

theorem fcc_completeI : CompleteI ![1, 1, 1] ![1, 1, 0] i111 i110 := by
  unfold CompleteI; decide +kernel
theorem bcc_completeI : CompleteI ![1, 1, 0] ![1, 1, 1] i110 i111 := by
  unfold CompleteI; decide +kernel
theorem bccPGa_completeI : CompleteI ![1, 1, 2] ![1, 1, 1] i112 i111 := by
  unfold CompleteI; decide +kernel
theorem bccPGb_completeI : CompleteI ![1, 2, 3] ![1, 1, 1] i123 i111b := by
  unfold CompleteI; decide +kernel

theorem family_int {p q r : ℤ} {v : Vec 3} (h : CubicFamily p q r v) :
    ∃ a b c : Fin 3, a ≠ b ∧ a ≠ c ∧ b ≠ c ∧ ∃ e f g : Bool, ∀ k,
      v k = 1 / Real.sqrt (p ^ 2 + q ^ 2 + r ^ 2) * (famI ![p, q, r] a b c e f g k : ℝ) := by
  obtain ⟨σ, ε, h⟩ := h
  have hε : ∀ i, ((ε i : ℤ) : ℝ) = ((if decide (ε i = 1) then 1 else -1 : ℤ) : ℝ) := by
    intro i
    rcases Int.units_eq_one_or (ε i) with h | h <;> simp [h]
  refine ⟨σ 0, σ 1, σ 2, fun h => by simpa using σ.injective h,
    fun h => by simpa using σ.injective h, fun h => by simpa using σ.injective h,
    decide (ε 0 = 1), decide (ε 1 = 1), decide (ε 2 = 1), ?_⟩
  intro k
  rw [h k, hε k]
  fin_cases k <;> simp [famI] <;> split_ifs <;> ring

theorem complete_of_int {n : ℕ} {p q r p' q' r' : ℤ} {m s : Fin n → Vec 3}
    {mI sI : Fin n → Fin 3 → ℤ}
    (hm : ∀ i k, m i k = 1 / Real.sqrt (p ^ 2 + q ^ 2 + r ^ 2) * (mI i k : ℝ))
    (hs : ∀ i k, s i k = 1 / Real.sqrt (p' ^ 2 + q' ^ 2 + r' ^ 2) * (sI i k : ℝ))
    (hp : (0:ℝ) < p ^ 2 + q ^ 2 + r ^ 2) (hp' : (0:ℝ) < p' ^ 2 + q' ^ 2 + r' ^ 2)
    (hI : CompleteI ![p, q, r] ![p', q', r'] mI sI)
    (u v : Vec 3) (hu : CubicFamily p q r u) (hv : CubicFamily p' q' r' v) (h0 : dot u v = 0) :
    ∃ i, SameSystem u v (m i) (s i) := by
  obtain ⟨a, b, c, h1, h2, h3, e, f, g, hu⟩ := family_int hu
  obtain ⟨a', b', c', h1', h2', h3', e', f', g', hv⟩ := family_int hv
  have hd := dot_int hu hv
  rw [h0] at hd
  have hz : dotI (famI ![p, q, r] a b c e f g) (famI ![p', q', r'] a' b' c' e' f' g') = 0 := by
    have : (0:ℝ) < 1 / Real.sqrt (p ^ 2 + q ^ 2 + r ^ 2) *
      (1 / Real.sqrt (p' ^ 2 + q' ^ 2 + r' ^ 2)) := by positivity
    rcases mul_eq_zero.1 hd.symm with h | h
    · linarith
    · exact_mod_cast h
  obtain ⟨i, hi1, hi2⟩ := hI a b c h1 h2 h3 e f g a' b' c' h1' h2' h3' e' f' g' hz
  refine ⟨i, same_of_pm ?_ ?_⟩
  · rcases hi1 with h | h
    · left; ext k; rw [hu, hm, h]
    · right; ext k; rw [hu, Pi.neg_apply, hm, h]; push_cast; ring
  · rcases hi2 with h | h
    · left; ext k; rw [hv, hs, h]
    · right; ext k; rw [hv, Pi.neg_apply, hs, h]; push_cast; ring

/-- each integer row belongs to the family -/
def InFamI {n : ℕ} (x : Fin 3 → ℤ) (mI : Fin n → Fin 3 → ℤ) : Prop :=
  ∀ i, ∃ a b c : Fin 3, (a ≠ b ∧ a ≠ c ∧ b ≠ c) ∧ ∃ e f g : Bool,
    ∀ p, famI x a b c e f g p = mI i p

theorem fam111 : InFamI ![1, 1, 1] i111 := by unfold InFamI; decide +kernel
theorem fam110 : InFamI ![1, 1, 0] i110 := by unfold InFamI; decide +kernel
theorem fam112 : InFamI ![1, 1, 2] i112 := by unfold InFamI; decide +kernel
theorem fam123 : InFamI ![1, 2, 3] i123 := by unfold InFamI; decide +kernel
theorem fam111b : InFamI ![1, 1, 1] i111b := by unfold InFamI; decide +kernel

theorem inFamily_of_int {n : ℕ} {p q r : ℤ} {m : Fin n → Vec 3} {mI : Fin n → Fin 3 → ℤ}
    (hm : ∀ i k, m i k = 1 / Real.sqrt (p ^ 2 + q ^ 2 + r ^ 2) * (mI i k : ℝ))
    (hI : InFamI ![p, q, r] mI) (i : Fin n) : CubicFamily p q r (m i) := by
  obtain ⟨a, b, c, ⟨h1, h2, h3⟩, e, f, g, h⟩ := hI i
  have hinj : Function.Injective (![a, b, c] : Fin 3 → Fin 3) := by
    intro x y hxy
    fin_cases x <;> fin_cases y <;> simp_all
  let σ : Equiv.Perm (Fin 3) := Equiv.ofBijective _ (Finite.injective_iff_bijective.1 hinj)
  have e0 : σ 0 = a := rfl
  have e1 : σ 1 = b := rfl
  have e2 : σ 2 = c := rfl
  refine ⟨σ, ![if e then 1 else -1, if f then 1 else -1, if g then 1 else -1], ?_⟩
  intro k
  rw [hm, ← h k]
  fin_cases k
  · simp only [Fin.zero_eta, e0]; cases e <;> simp [famI] <;> ring
  · simp only [Fin.mk_one, e1]; cases f <;> simp [famI] <;> ring
  · simp only [Fin.reduceFinMk, e2]; cases g <;> simp [famI] <;> ring

theorem sqr3i_fam : sqr3i = 1 / Real.sqrt (((1:ℤ):ℝ) ^ 2 + ((1:ℤ):ℝ) ^ 2 + ((1:ℤ):ℝ) ^ 2) := by
  rw [sqr3i]; norm_num
theorem sqr2i_fam : sqr2i = 1 / Real.sqrt (((1:ℤ):ℝ) ^ 2 + ((1:ℤ):ℝ) ^ 2 + ((0:ℤ):ℝ) ^ 2) := by
  rw [sqr2i]; norm_num
theorem sqr6i_fam : sqr6i = 1 / Real.sqrt (((1:ℤ):ℝ) ^ 2 + ((1:ℤ):ℝ) ^ 2 + ((2:ℤ):ℝ) ^ 2) := by
  rw [sqr6i]; norm_num
theorem sqr14i_fam : 1 / Real.sqrt 14
    = 1 / Real.sqrt (((1:ℤ):ℝ) ^ 2 + ((2:ℤ):ℝ) ^ 2 + ((3:ℤ):ℝ) ^ 2) := by norm_num

theorem append_right {a b : ℕ} {m s : Fin a → Vec 3} {m' s' : Fin b → Vec 3} {u v : Vec 3}
    (h : ∃ i, SameSystem u v (m' i) (s' i)) :
    ∃ i, SameSystem u v (Fin.append m m' i) (Fin.append s s' i) := by
  obtain ⟨i, h⟩ := h
  exact ⟨Fin.natAdd a i, by simpa [-Fin.natAdd_eq_addNat] using h⟩

theorem append_left {a b : ℕ} {m s : Fin a → Vec 3} {m' s' : Fin b → Vec 3} {u v : Vec 3}
    (h : ∃ i, SameSystem u v (m i) (s i)) :
    ∃ i, SameSystem u v (Fin.append m m' i) (Fin.append s s' i) := by
  obtain ⟨i, h⟩ := h
  exact ⟨Fin.castAdd b i, by simpa using h⟩

theorem bcc112_complete (m s : V3) (h1 : CubicFamily 1 1 2 m) (h2 : CubicFamily 1 1 1 s)
    (h0 : dot m s = 0) : ∃ i, SameSystem m s (bccPGaM i) (bccPGaS i) :=
  complete_of_int (fun i k => by rw [bccPGaM_int, sqr6i_fam])
    (fun i k => by rw [bccPGaS_int, sqr3i_fam]) (by norm_num) (by norm_num) bccPGa_completeI
    m s h1 h2 h0

theorem bcc123_complete (m s : V3) (h1 : CubicFamily 1 2 3 m) (h2 : CubicFamily 1 1 1 s)
    (h0 : dot m s = 0) : ∃ i, SameSystem m s (bccPGbM i) (bccPGbS i) :=
  complete_of_int (fun i k => by rw [bccPGbM_int, sqr14i_fam])
    (fun i k => by rw [bccPGbS_int, sqr3i_fam]) (by norm_num) (by norm_num) bccPGb_completeI
    m s h1 h2 h0

end Ecm
