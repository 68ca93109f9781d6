/- Property theorems C74: the accumulated slip in floating-point arithmetic
   (src/ecmech/ECMech_evptn.h:668, 1183-1184; src/ecmech/ECMech_util.h:67-74). -/
import Verif.Lemmas.RoundingAcc
import Verif.Props.Response

namespace Ecm.Props
open Ecm Spec
variable {n : ℕ}

/-- a history of the stored accumulated slip: step `k` of length `dt k` with slip rates `g k` -/
def SlipHistory (F : Flt) (dt : ℕ → ℝ) (g : ℕ → Vec n) (s : ℕ → ℝ) : Prop :=
  ∀ k, s (k + 1) = F.shrEff (s k) (dt k) (g k)

/-- the slip accumulated in exact arithmetic over the first `N` steps -/
def totalSlip (dt : ℕ → ℝ) (g : ℕ → Vec n) (s0 : ℝ) (N : ℕ) : ℝ :=
  s0 + ∑ k ∈ Finset.range N, dt k * ∑ i, |g k i|

theorem sumAbs_exact {F : Flt} (hF : ∀ x, F.fl x = x) : ∀ {n : ℕ} (v : Vec n), F.sumAbs v = ∑ i, |v i|
  | 0, _ => by simp [Flt.sumAbs]
  | n + 1, v => by rw [Flt.sumAbs, hF, sumAbs_exact hF, Fin.sum_univ_castSucc]

/-- C74 without rounding, the accumulation is the one of the update `getResponseSngl` -/
theorem C74_exact {nH : ℕ} {F : Flt} (hF : ∀ x, F.fl x = x) (X : Ext) (M : Material n nH) (inp : Inputs)
    (m m' : Mem nH n) (h : getResponseSngl X M inp m = .ok m') :
    (histOf m').shrEff = F.shrEff (histOf m).shrEff inp.dt (histOf m').gdot := by
  obtain ⟨h1, -, h2⟩ := C32_step X M inp m m' h
  rw [h2, h1, Flt.shrEff, hF, hF, sumAbs_exact hF, mul_comm]

/-- rounding keeps the order of numbers and does not change numbers that are already rounded;
    this holds for every rounding mode of IEEE 754 -/
structure Ordered (F : Flt) : Prop where
  mono : Monotone F.fl
  idem : ∀ x, F.fl (F.fl x) = F.fl x
  zero : F.fl 0 = 0

theorem Ordered.sumAbs_nonneg {F : Flt} (hF : Ordered F) : ∀ {n : ℕ} (v : Vec n), 0 ≤ F.sumAbs v
  | 0, _ => le_rfl
  | n + 1, v => by
    rw [Flt.sumAbs, ← hF.zero]
    exact hF.mono (add_nonneg (Ordered.sumAbs_nonneg hF _) (abs_nonneg _))

/-- **C74 the stored accumulated slip never decreases**, with any rounding that keeps the order of
    numbers, for any slip rates and any number of steps. -/
theorem C74_monotone {F : Flt} (hF : Ordered F) {dt : ℕ → ℝ} {g : ℕ → Vec n} {s : ℕ → ℝ}
    (h : SlipHistory F dt g s) (hdt : ∀ k, 0 ≤ dt k) (h0 : F.fl (s 0) = s 0) : Monotone s := by
  have hrep : ∀ k, F.fl (s k) = s k := by
    intro k
    cases k with
    | zero => exact h0
    | succ k => rw [h k]; exact hF.idem _
  refine monotone_nat_of_le_succ fun k => ?_
  rw [h k]
  conv_lhs => rw [← hrep k]
  refine hF.mono (le_add_of_nonneg_right ?_)
  rw [← hF.zero]
  exact hF.mono (mul_nonneg (hF.sumAbs_nonneg _) (hdt k))

theorem totalSlip_succ (dt : ℕ → ℝ) (g : ℕ → Vec n) (s0 : ℝ) (N : ℕ) :
    totalSlip dt g s0 (N + 1) = totalSlip dt g s0 N + dt N * ∑ i, |g N i| := by
  unfold totalSlip; rw [Finset.sum_range_succ]; ring

/-- the increment of one step in floating-point arithmetic -/
theorem incr_err (F : Flt) {g : Vec n} {d M : ℝ} (hu : (1 + F.u) ^ n ≤ 2) (hη : n * F.η ≤ 1)
    (hd : 0 ≤ d) (hd1 : d ≤ 10 ^ 200) (hg : (∑ i, |g i|) ≤ 10 ^ 200) (hM : d * ∑ i, |g i| ≤ M) (hM1 : M ≤ 10 ^ 200) :
    abs (F.fl (F.sumAbs g * d) - d * ∑ i, |g i|)
      ≤ ((1 + F.u) ^ (n + 1) - 1) * (d * ∑ i, |g i|) + (1 + F.u) ^ (n + 1) * ((n * d + 1) * F.η) := by
  have u0 := F.u_nonneg
  have e0 := F.η_nonneg
  have e := F.sumAbs_err g hg hu hη
  have hG : 0 ≤ ∑ i, |g i| := Finset.sum_nonneg fun i _ => abs_nonneg _
  have hA1 : 1 ≤ (1 + F.u) ^ n := one_le_pow₀ (by linarith)
  have hn : (0:ℝ) ≤ n := Nat.cast_nonneg n
  rw [pow_succ]
  generalize (1 + F.u) ^ n = A at *
  generalize (∑ i, |g i|) = G at *
  generalize F.sumAbs g = s at *
  have h1 : |s * d - d * G| ≤ (A - 1) * (d * G) + A * (n * d * F.η) := by
    rw [show s * d - d * G = d * (s - G) by ring, abs_mul, abs_of_nonneg hd]
    have := mul_le_mul_of_nonneg_left e hd
    linarith
  have hdG : 0 ≤ d * G := mul_nonneg hd hG
  have h2 := abs_le.1 h1
  have hnd : n * d * F.η ≤ 10 ^ 200 := by
    have := mul_le_mul hη hd1 hd (by norm_num)
    linarith
  have hnd0 : 0 ≤ n * d * F.η := by positivity
  have h3 : |s * d| ≤ A * (d * G) + A * (n * d * F.η) := by
    rw [abs_le]
    have : 0 ≤ A * (d * G) := by positivity
    constructor <;> linarith
  have hb : |s * d| ≤ 10 ^ 250 := by
    have a1 : A * (d * G) ≤ 2 * 10 ^ 200 := mul_le_mul hu (hM.trans hM1) hdG (by norm_num)
    have a2 : A * (n * d * F.η) ≤ 2 * 10 ^ 200 := mul_le_mul hu hnd hnd0 (by norm_num)
    have : (2:ℝ) * 10 ^ 200 + 2 * 10 ^ 200 ≤ 10 ^ 250 := by norm_num
    linarith
  have hf := F.fl_err _ hb
  have hm := mul_le_mul_of_nonneg_left h3 u0
  have tri := abs_sub_le (F.fl (s * d)) (s * d) (d * G)
  have h5 : F.η ≤ A * (1 + F.u) * F.η := by nlinarith [mul_nonneg u0 e0]
  nlinarith

/-- **C74 error of the accumulated slip.** After `N` steps the stored value differs from the exact total
    by at most a relative `2 (N + n + 1) u`, apart from underflow: all terms have the same sign, so there is no
    cancellation. -/
theorem C74_error (F : Flt) {dt : ℕ → ℝ} {g : ℕ → Vec n} {s : ℕ → ℝ} (h : SlipHistory F dt g s) (h0 : 0 ≤ s 0)
    (hdt : ∀ k, 0 ≤ dt k) (N : ℕ) (hN : (N + n + 1 : ℕ) * F.u ≤ 1 / 2) (hg : ∀ k < N, (∑ i, |g k i|) ≤ 10 ^ 200)
    (hT : ∑ k ∈ Finset.range N, dt k ≤ 10 ^ 200) (hS : totalSlip dt g (s 0) N ≤ 10 ^ 200) :
    |s N - totalSlip dt g (s 0) N| ≤ 2 * ((N + n + 1 : ℕ) * F.u) * totalSlip dt g (s 0) N
      + 2 * F.η * (n * ∑ k ∈ Finset.range N, dt k + 2 * N) := by
  have u0 := F.u_nonneg
  have e0 := F.η_nonneg
  have hn : (0:ℝ) ≤ n := Nat.cast_nonneg n
  have h1u : 1 ≤ 1 + F.u := by linarith
  have hG : ∀ k, 0 ≤ ∑ i, |g k i| := fun k => Finset.sum_nonneg fun i _ => abs_nonneg _
  have hpN := pow_one_add_le u0 hN
  have hp2 : (1 + F.u) ^ (N + n + 1) ≤ 2 := by linarith
  have hη1 : (N + n + 1 : ℕ) * F.η ≤ 1 := by
    have hmul : (N + n + 1 : ℕ) * F.η ≤ (N + n + 1 : ℕ) * (F.u / 10 ^ 200) :=
      mul_le_mul_of_nonneg_left F.η_le (Nat.cast_nonneg _)
    have : (N + n + 1 : ℕ) * (F.u / 10 ^ 200) = (N + n + 1 : ℕ) * F.u / 10 ^ 200 := by ring
    rw [this] at hmul
    have : (N + n + 1 : ℕ) * F.u / 10 ^ 200 ≤ (N + n + 1 : ℕ) * F.u / 1 :=
      div_le_div_of_nonneg_left (mul_nonneg (Nat.cast_nonneg _) u0) one_pos (by norm_num)
    linarith
  have hTm : ∀ k ≤ N, ∑ j ∈ Finset.range k, dt j ≤ ∑ j ∈ Finset.range N, dt j := fun k hk =>
    Finset.sum_le_sum_of_subset_of_nonneg (Finset.range_mono hk) fun j _ _ => hdt j
  have hSm : ∀ k ≤ N, totalSlip dt g (s 0) k ≤ totalSlip dt g (s 0) N := fun k hk =>
    add_le_add_right (Finset.sum_le_sum_of_subset_of_nonneg (Finset.range_mono hk)
      fun j _ _ => mul_nonneg (hdt j) (hG j)) _
  have hS0 : ∀ k, 0 ≤ totalSlip dt g (s 0) k := fun k =>
    add_nonneg h0 (Finset.sum_nonneg fun j _ => mul_nonneg (hdt j) (hG j))
  have key : ∀ k ≤ N, |s k - totalSlip dt g (s 0) k| ≤ ((1 + F.u) ^ (k + n + 1) - 1) * totalSlip dt g (s 0) k
      + (1 + F.u) ^ (k + n + 1) * (F.η * (n * ∑ j ∈ Finset.range k, dt j + 2 * k)) := by
    intro k
    induction k with
    | zero =>
      intro _
      have : totalSlip dt g (s 0) 0 = s 0 := by simp [totalSlip]
      rw [this, sub_self, abs_zero]
      have : 1 ≤ (1 + F.u) ^ (0 + n + 1) := one_le_pow₀ h1u
      simp only [Finset.range_zero, Finset.sum_empty, mul_zero, Nat.cast_zero, add_zero]
      exact mul_nonneg (by linarith) h0
    | succ k ih =>
      intro hk
      have ih := ih (by omega)
      have hk' : k < N := by omega
      have hnN : (n:ℝ) * F.η ≤ 1 := by
        refine le_trans (mul_le_mul_of_nonneg_right ?_ e0) hη1
        exact_mod_cast (by omega : n ≤ N + n + 1)
      have hdk : dt k ≤ 10 ^ 200 := by
        have := hTm (k + 1) hk
        rw [Finset.sum_range_succ] at this
        have : 0 ≤ ∑ j ∈ Finset.range k, dt j := Finset.sum_nonneg fun j _ => hdt j
        linarith
      have hStep := totalSlip_succ dt g (s 0) k
      have hSk1 := (hSm (k + 1) hk).trans hS
      have hinc := incr_err F (g := g k) (d := dt k) (M := 10 ^ 200)
        ((pow_le_pow_right₀ h1u (by omega)).trans hp2) hnN (hdt k) hdk (hg k hk')
        (by linarith [hS0 k]) le_rfl
      have hB : (1 + F.u) ^ (n + 1) ≤ (1 + F.u) ^ (k + n + 1) := pow_le_pow_right₀ h1u (by omega)
      have hB1 : 1 ≤ (1 + F.u) ^ (n + 1) := one_le_pow₀ h1u
      have hA2 : (1 + F.u) ^ (k + n + 1) ≤ 2 := (pow_le_pow_right₀ h1u (by omega)).trans hp2
      have hkη : (n * ∑ j ∈ Finset.range k, dt j + 2 * k + (n * dt k + 1)) * F.η ≤ 3 * 10 ^ 200 := by
        have a1 := hTm (k + 1) hk
        rw [Finset.sum_range_succ] at a1
        have a2 : (n * F.η) * (∑ j ∈ Finset.range k, dt j + dt k) ≤ 1 * 10 ^ 200 :=
          mul_le_mul hnN (a1.trans hT) (add_nonneg (Finset.sum_nonneg fun j _ => hdt j) (hdt k)) (by norm_num)
        have a3 : (k + 1 : ℝ) * F.η ≤ 1 := by
          refine le_trans (mul_le_mul_of_nonneg_right ?_ e0) hη1
          push_cast
          have : (k:ℝ) ≤ N := by exact_mod_cast hk'.le
          linarith
        have a4 : 0 ≤ (k:ℝ) * F.η := by positivity
        linarith
      have hH0 : 0 ≤ (n * ∑ j ∈ Finset.range k, dt j + 2 * k + (n * dt k + 1)) * F.η := by
        have : 0 ≤ ∑ j ∈ Finset.range k, dt j := Finset.sum_nonneg fun j _ => hdt j
        have := hdt k
        positivity
      rw [h k, Flt.shrEff]
      rw [Finset.sum_range_succ]
      rw [show k + 1 + n + 1 = (k + n + 1) + 1 by ring, pow_succ]
      push_cast
      rw [hStep] at hSk1 ⊢
      have hSk := hS0 k
      have hPk : 0 ≤ dt k * ∑ i, |g k i| := mul_nonneg (hdt k) (hG k)
      have hdk0 := hdt k
      have hk0 : (0:ℝ) ≤ k := Nat.cast_nonneg k
      generalize (1 + F.u) ^ (k + n + 1) = A at *
      generalize (1 + F.u) ^ (n + 1) = B at *
      generalize (dt k * ∑ i, |g k i|) = P at *
      generalize F.fl (F.sumAbs (g k) * dt k) = p at *
      generalize totalSlip dt g (s 0) k = S at *
      generalize (∑ j ∈ Finset.range k, dt j) = τ at *
      generalize s k = x at *
      generalize dt k = d at *
      have p1 : |p - P| ≤ (A - 1) * P + A * ((n * d + 1) * F.η) := by
        refine hinc.trans (add_le_add (mul_le_mul_of_nonneg_right (by linarith) hPk)
          (mul_le_mul_of_nonneg_right hB (by positivity)))
      have hx : |x + p - (S + P)| ≤ (A - 1) * (S + P) + A * ((n * τ + 2 * k + (n * d + 1)) * F.η) := by
        rw [show x + p - (S + P) = (x - S) + (p - P) by ring]
        refine (abs_add_le _ _).trans ?_
        linarith
      have hx' := abs_le.1 hx
      generalize hHe : (n * τ + 2 * k + (n * d + 1)) * F.η = H at *
      have hxa : |x + p| ≤ A * (S + P) + A * H := by
        rw [abs_le]
        have : 0 ≤ A * (S + P) := mul_nonneg (by linarith) (by linarith)
        constructor <;> linarith
      have hb : |x + p| ≤ 10 ^ 250 := by
        have a1 : A * (S + P) ≤ 2 * 10 ^ 200 := mul_le_mul hA2 hSk1 (by linarith) (by norm_num)
        have a2 : A * H ≤ 2 * (3 * 10 ^ 200) := mul_le_mul hA2 hkη hH0 (by norm_num)
        have : (2:ℝ) * 10 ^ 200 + 2 * (3 * 10 ^ 200) ≤ 10 ^ 250 := by norm_num
        linarith
      have hf := F.fl_err _ hb
      have hm := mul_le_mul_of_nonneg_left hxa u0
      have tri := abs_sub_le (F.fl (x + p)) (x + p) (S + P)
      have h5 : F.η ≤ A * (1 + F.u) * F.η := by
        have : 1 ≤ A * (1 + F.u) := by nlinarith
        nlinarith
      have h6 : A * (1 + F.u) * (F.η * (n * (τ + d) + 2 * (k + 1))) = A * (1 + F.u) * H + A * (1 + F.u) * F.η := by
        rw [← hHe]; ring
      rw [h6]
      nlinarith
  refine (key N le_rfl).trans ?_
  have hτ : 0 ≤ ∑ j ∈ Finset.range N, dt j := Finset.sum_nonneg fun j _ => hdt j
  have hSN := hS0 N
  have hH : 0 ≤ F.η * (n * ∑ j ∈ Finset.range N, dt j + 2 * N) := by positivity
  have b1 := mul_le_mul_of_nonneg_right hp2 hH
  have b2 := mul_le_mul_of_nonneg_right (sub_le_iff_le_add'.2 hpN) hSN
  linarith


theorem dbl_ordered : Ordered dbl := ⟨dblRound_mono, dblRound_idem, dblRound_zero⟩

/-- **C74 the accumulated slip can stop growing.** In double precision a stored value does not change any
    more, for any number of steps, when the slip of every step is below 2^-56 of it. -/
theorem C74_stalls {dt : ℕ → ℝ} {g : ℕ → Vec n} {s : ℕ → ℝ} (h : SlipHistory dbl dt g s)
    (h0 : dbl.fl (s 0) = s 0) (h1 : 1 / 10 ^ 100 ≤ s 0) (hn : n ≤ 10 ^ 6) (hdt : ∀ k, 0 ≤ dt k) (hdt1 : ∀ k, dt k ≤ 10 ^ 50)
    (hg : ∀ k, (∑ i, |g k i|) ≤ 10 ^ 50) (hinc : ∀ k, dt k * ∑ i, |g k i| ≤ s 0 / 2 ^ 56) (k : ℕ) : s k = s 0 := by
  have u : dbl.u = 2⁻¹ ^ 53 := rfl
  have u0 := dbl.u_nonneg
  have e0 := dbl.η_nonneg
  have hu1 : dbl.u ≤ 1 / 10 ^ 15 := by rw [u]; norm_num
  have hη1 : dbl.η ≤ 1 / 10 ^ 215 := by
    refine dbl.η_le.trans ?_
    rw [div_le_iff₀ (by norm_num)]
    exact hu1.trans (by norm_num)
  have hnr : (n:ℝ) ≤ 10 ^ 6 := by exact_mod_cast hn
  have hpow : (1 + dbl.u) ^ (n + 1) ≤ 1 + 1 / 10 ^ 8 := by
    have hm : ((n + 1 : ℕ) : ℝ) * dbl.u ≤ (10 ^ 6 + 1) * (1 / 10 ^ 15) :=
      mul_le_mul (by push_cast; linarith) hu1 u0 (by norm_num)
    refine (pow_one_add_le u0 (hm.trans (by norm_num))).trans ?_
    have : ((10:ℝ) ^ 6 + 1) * (1 / 10 ^ 15) ≤ 1 / 10 ^ 8 / 2 := by norm_num
    linarith
  have hnη : (n:ℝ) * dbl.η ≤ 10 ^ 6 * (1 / 10 ^ 215) := mul_le_mul hnr hη1 e0 (by norm_num)
  induction k with
  | zero => rfl
  | succ k ih =>
    have hG : 0 ≤ ∑ i, |g k i| := Finset.sum_nonneg fun i _ => abs_nonneg _
    have h50 : (10:ℝ) ^ 50 ≤ 10 ^ 200 := by norm_num
    have hM : dt k * ∑ i, |g k i| ≤ 10 ^ 50 * 10 ^ 50 := mul_le_mul (hdt1 k) (hg k) hG (by norm_num)
    have hi := incr_err dbl (g := g k) (d := dt k) (M := 10 ^ 50 * 10 ^ 50)
      ((pow_le_pow_right₀ (by linarith) (Nat.le_succ n)).trans (hpow.trans (by norm_num)))
      (hnη.trans (by norm_num)) (hdt k) ((hdt1 k).trans h50) ((hg k).trans h50) hM (by norm_num)
    rw [h k, ih, Flt.shrEff]
    have hp0 : 0 ≤ dbl.fl (dbl.sumAbs (g k) * dt k) := by
      rw [← dbl_ordered.zero]
      exact dbl_ordered.mono (mul_nonneg (dbl_ordered.sumAbs_nonneg _) (hdt k))
    refine dblRound_absorb h0 (le_trans ?_ h1) hp0 ?_
    · rw [inv_pow, inv_eq_one_div]
      refine one_div_le_one_div_of_le (by norm_num) ?_
      calc (10:ℝ) ^ 100 ≤ (2 ^ 10) ^ 100 := pow_le_pow_left₀ (by norm_num) (by norm_num) 100
        _ = 2 ^ 1000 := by rw [← pow_mul]
    · have hnd : (n * dt k + 1) * dbl.η ≤ 1 / 10 ^ 150 := by
        have a1 := mul_le_mul hnη (hdt1 k) (hdt k) (by norm_num)
        have : (10:ℝ) ^ 6 * (1 / 10 ^ 215) * 10 ^ 50 + 1 / 10 ^ 215 ≤ 1 / 10 ^ 150 := by norm_num
        linarith
      have hnd0 : 0 ≤ (n * dt k + 1) * dbl.η := 
        mul_nonneg (add_nonneg (mul_nonneg (Nat.cast_nonneg n) (hdt k)) zero_le_one) e0
      have hP := hinc k
      have hP0 : 0 ≤ dt k * ∑ i, |g k i| := mul_nonneg (hdt k) hG
      have hi := (abs_le.1 hi).2
      have b1 : (1 + dbl.u) ^ (n + 1) * (dt k * ∑ i, |g k i|) ≤ (1 + 1 / 10 ^ 8) * (s 0 / 2 ^ 56) :=
        mul_le_mul hpow hP hP0 (by norm_num)
      have b2 : (1 + dbl.u) ^ (n + 1) * ((n * dt k + 1) * dbl.η) ≤ (1 + 1 / 10 ^ 8) * (1 / 10 ^ 150) :=
        mul_le_mul hpow hnd hnd0 (by norm_num)
      have b3 : (1 + 1 / 10 ^ 8) * (1 / 10 ^ 150 : ℝ) ≤ 1 / 10 ^ 20 * (1 / 10 ^ 100) := by norm_num
      have b4 : (1:ℝ) / 10 ^ 20 * (1 / 10 ^ 100) ≤ 1 / 10 ^ 20 * s 0 := mul_le_mul_of_nonneg_left h1 (by norm_num)
      have hs : 0 < s 0 := lt_of_lt_of_le (by positivity) h1
      have b5 : (1 + 1 / 10 ^ 8) * (s 0 / 2 ^ 56) + 1 / 10 ^ 20 * s 0 < s 0 / 2 ^ 54 := by
        have : (1 + 1 / 10 ^ 8) / 2 ^ 56 + 1 / 10 ^ 20 < (1:ℝ) / 2 ^ 54 := by norm_num
        have := mul_lt_mul_of_pos_right this hs
        linarith
      linarith

/-- **C74 refuted: the accumulated slip need not follow the total.**  One slip system at the constant rate
    2^-60, steps of length one, stored value one: the stored value stays at one for ever, while the total
    exceeds every bound. -/
theorem C74_refuted_tracking : ∃ s : ℕ → ℝ, SlipHistory dbl (fun _ => 1) (fun _ => ![2⁻¹ ^ 60]) s ∧ s 0 = 1 ∧
    (∀ k, s k = 1) ∧ ∀ B, ∃ k, B < totalSlip (fun _ => 1) (fun _ => ![2⁻¹ ^ 60]) 1 k := by
  have hone : dbl.fl 1 = 1 := by
    have e : dblExp 1 = 0 := by simp [dblExp]
    show dblRound 1 = 1
    refine dblRound_of_grid (j := 2 ^ 52) ?_
    rw [e]; norm_num
  refine ⟨fun k => Nat.rec 1 (fun _ x => dbl.shrEff x 1 ![2⁻¹ ^ 60]) k, fun k => rfl, rfl, fun k => ?_, fun B => ?_⟩
  · refine C74_stalls (n := 1) (dt := fun _ => 1) (g := fun _ => ![2⁻¹ ^ 60])
      (s := fun k => Nat.rec 1 (fun _ x => dbl.shrEff x 1 ![2⁻¹ ^ 60]) k) (fun k => rfl) hone (by norm_num) (by norm_num)
      (fun _ => zero_le_one) (fun _ => by norm_num) (fun _ => ?_) (fun _ => ?_) k
    · simp; norm_num
    · simp; norm_num
  · obtain ⟨k, hk⟩ := exists_nat_gt (B * 2 ^ 60)
    refine ⟨k, ?_⟩
    have e : totalSlip (fun _ => 1) (fun _ => ![(2:ℝ)⁻¹ ^ 60]) 1 k = 1 + k / 2 ^ 60 := by
      have : (∑ i : Fin 1, |(![(2:ℝ)⁻¹ ^ 60] : Vec 1) i|) = 1 / 2 ^ 60 := by
        rw [Fin.sum_univ_one, Matrix.cons_val_zero, abs_of_pos (by positivity), inv_pow, one_div]
      unfold totalSlip
      beta_reduce
      rw [this, Finset.sum_const, Finset.card_range, nsmul_eq_mul]
      ring
    rw [e]
    have : B < k / 2 ^ 60 := by rw [lt_div_iff₀ (by positivity)]; exact hk
    linarith

/-- hypotheses of the first two theorems: double precision, twelve slip systems at different rates,
    a thousand steps of different length, starting from a slip of one -/
example : ∃ (dt : ℕ → ℝ) (g : ℕ → Vec 12) (s : ℕ → ℝ), SlipHistory dbl dt g s ∧ Monotone s ∧
    |s 1000 - totalSlip dt g 1 1000| ≤ 1 / 10 ^ 12 * totalSlip dt g 1 1000 + 1 / 10 ^ 100 ∧
    1 < totalSlip dt g 1 1000 := by
  have hone : dbl.fl 1 = 1 := by
    have e : dblExp 1 = 0 := by simp [dblExp]
    show dblRound 1 = 1
    refine dblRound_of_grid (j := 2 ^ 52) ?_
    rw [e]; norm_num
  let dt : ℕ → ℝ := fun k => if k % 2 = 0 then 1 / 1000 else 2 / 1000
  let g : ℕ → Vec 12 := fun _ i => if i = 3 then -1 else 1 / 2
  let s : ℕ → ℝ := fun k => Nat.rec 1 (fun k x => dbl.shrEff x (dt k) (g k)) k
  have hd0 : ∀ k, 0 ≤ dt k := fun k => by simp only [dt]; split_ifs <;> norm_num
  have hd1 : ∀ k, dt k ≤ 2 / 1000 := fun k => by simp only [dt]; split_ifs <;> norm_num
  have hd2 : ∀ k, 0 < dt k := fun k => by simp only [dt]; split_ifs <;> norm_num
  have hG : ∀ k, (∑ i, |g k i|) = 13 / 2 := fun k => by
    have : ∀ i : Fin 12, |g k i| = if i = 3 then 1 else 1 / 2 := fun i => by
      simp only [g]; split_ifs <;> norm_num
    simp only [this, Fin.sum_univ_succ]
    norm_num [Fin.ext_iff]
  have hT : ∑ k ∈ Finset.range 1000, dt k ≤ 2 := by
    refine (Finset.sum_le_sum fun k _ => hd1 k).trans ?_
    simp; norm_num
  have hS : totalSlip dt g 1 1000 = 1 + 13 / 2 * ∑ k ∈ Finset.range 1000, dt k := by
    unfold totalSlip
    simp only [hG]
    rw [← Finset.sum_mul, mul_comm]
  have hT0 : 0 < ∑ k ∈ Finset.range 1000, dt k := Finset.sum_pos (fun k _ => hd2 k) ⟨0, by simp⟩
  refine ⟨dt, g, s, fun k => rfl, C74_monotone dbl_ordered (dt := dt) (g := g) (s := s) (fun k => rfl) hd0 hone, ?_, ?_⟩
  · have u : dbl.u = 2⁻¹ ^ 53 := rfl
    have e0 := dbl.η_nonneg
    have hη := dbl.η_le
    have hη1 : dbl.η ≤ 1 / 10 ^ 200 := hη.trans (by
      rw [u]; exact div_le_div_of_nonneg_right (by norm_num) (by norm_num))
    refine (C74_error dbl (dt := dt) (g := g) (s := s) (fun k => rfl) (by show (0:ℝ) ≤ 1; norm_num) hd0 1000
      (by rw [u]; norm_num) (fun k _ => by rw [hG k]; norm_num) (hT.trans (by norm_num)) ?_).trans ?_
    · show totalSlip dt g 1 1000 ≤ _
      rw [hS]
      have : 1 + 13 / 2 * (2:ℝ) ≤ 10 ^ 200 := by norm_num
      linarith
    · show 2 * (((1000 + 12 + 1 : ℕ) : ℝ) * dbl.u) * totalSlip dt g 1 1000
        + 2 * dbl.η * (((12 : ℕ) : ℝ) * ∑ k ∈ Finset.range 1000, dt k + 2 * ((1000 : ℕ) : ℝ)) ≤ _
      have hS0 : 0 ≤ totalSlip dt g 1 1000 := by rw [hS]; linarith
      have a1 : 2 * (((1000 + 12 + 1 : ℕ) : ℝ) * dbl.u) ≤ 1 / 10 ^ 12 := by rw [u]; norm_num
      have a2 := mul_le_mul_of_nonneg_right a1 hS0
      have a3 : 2 * dbl.η * (((12 : ℕ) : ℝ) * ∑ k ∈ Finset.range 1000, dt k + 2 * ((1000 : ℕ) : ℝ))
          ≤ 2 * (1 / 10 ^ 200) * (12 * 2 + 2 * 1000) := by
        push_cast
        refine mul_le_mul (by linarith) (by linarith) (by positivity) (by norm_num)
      have a4 : 2 * (1 / 10 ^ 200 : ℝ) * (12 * 2 + 2 * 1000) ≤ 1 / 10 ^ 100 := by norm_num
      linarith
  · rw [hS]; linarith

end Ecm.Props
