/- Helper lemmas: printed numbers are decimal notations with the rounded value. -/
import Verif.Model.Print
import Verif.Props.Decimal

namespace Ecm.Props
open Ecm

/-- `digitsW` with digits instead of characters -/
def dW : ℕ → ℕ → List (Fin 10)
  | 0, _ => []
  | w + 1, m => dW w (m / 10) ++ [⟨m % 10, Nat.mod_lt _ (by norm_num)⟩]

theorem digitText_append (a b : List (Fin 10)) : digitText (a ++ b) = digitText a ++ digitText b := by
  simp [digitText]

theorem dW_text (w m : ℕ) : digitText (dW w m) = digitsW w m := by
  induction w generalizing m with
  | zero => rfl
  | succ w ih => rw [dW, digitsW, digitText_append, ih]; rfl

theorem dW_length (w m : ℕ) : (dW w m).length = w := by
  induction w generalizing m with
  | zero => rfl
  | succ w ih => simp [dW, ih]

theorem natVal_snoc (a : List (Fin 10)) (d : Fin 10) : natVal (a ++ [d]) = natVal a * 10 + d.val := by
  induction a with
  | nil => simp [natVal]
  | cons c a ih => simp only [List.cons_append, natVal, ih, List.length_append, List.length_singleton]; ring

theorem dW_val {w m : ℕ} (h : m < 10 ^ w) : natVal (dW w m) = m := by
  induction w generalizing m with
  | zero => simp at h; subst h; rfl
  | succ w ih =>
    rw [dW, natVal_snoc, ih (by rw [pow_succ] at h; omega)]
    show m / 10 * 10 + m % 10 = m
    omega

theorem dW_ne {w : ℕ} (h : 0 < w) (m : ℕ) : dW w m ≠ [] := by
  intro e
  have := dW_length w m
  rw [e] at this
  simp at this; omega

/-- `dropZeros` with digits -/
def dZ : List (Fin 10) → List (Fin 10)
  | [] => []
  | d :: l => if dZ l = [] ∧ d = 0 then [] else d :: dZ l

theorem digitChar_zero : ∀ d : Fin 10, Nat.digitChar d.val = '0' ↔ d = 0 := by decide

theorem dZ_text (ds : List (Fin 10)) : digitText (dZ ds) = dropZeros (digitText ds) := by
  induction ds with
  | nil => rfl
  | cons d ds ih =>
    have h : dropZeros (digitText ds) = [] ↔ dZ ds = [] := by
      rw [← ih]; simp [digitText]
    show digitText (if dZ ds = [] ∧ d = 0 then [] else d :: dZ ds)
      = if dropZeros (digitText ds) = [] ∧ Nat.digitChar d.val = '0' then [] else Nat.digitChar d.val :: dropZeros (digitText ds)
    simp only [h, digitChar_zero]
    split_ifs
    · rfl
    · rw [← ih]; rfl

theorem dZ_val (ds : List (Fin 10)) : fracVal (dZ ds) = fracVal ds := by
  induction ds with
  | nil => rfl
  | cons d ds ih =>
    unfold dZ
    split_ifs with h
    · rw [h.1] at ih
      simp only [fracVal] at ih ⊢
      rw [← ih, h.2]; simp
    · simp only [fracVal, ih]

/-- the fraction as it is written -/
def fracDec (ds : List (Fin 10)) : Option (List (Fin 10)) := if dZ ds = [] then none else some (dZ ds)

theorem fracDec_text (ds : List (Fin 10)) : fracText (fracDec ds) = fracOut (digitText ds) := by
  have h : dropZeros (digitText ds) = [] ↔ dZ ds = [] := by rw [← dZ_text]; simp [digitText]
  unfold fracDec fracOut
  simp only [h]
  split_ifs
  · rfl
  · rw [← dZ_text]; rfl

theorem fracDec_val (ds : List (Fin 10)) : fracVal ((fracDec ds).getD []) = fracVal ds := by
  unfold fracDec
  split_ifs with h
  · rw [← dZ_val ds, h]; rfl
  · exact dZ_val ds

theorem mant_val {w D m : ℕ} (h : m / 10 ^ D < 10 ^ w) :
    wholeVal (dW w (m / 10 ^ D)) + fracVal ((fracDec (dW D (m % 10 ^ D))).getD []) = m / 10 ^ D := by
  have hp : (0:ℝ) < 10 ^ D := by positivity
  rw [fracDec_val, wholeVal_nat, dW_val h]
  have hf := fracVal_nat (dW D (m % 10 ^ D))
  rw [dW_length, dW_val (Nat.mod_lt _ (by positivity))] at hf
  have hm : ((m / 10 ^ D : ℕ) : ℝ) * 10 ^ D + ((m % 10 ^ D : ℕ) : ℝ) = m := by
    exact_mod_cast Nat.div_add_mod' m (10 ^ D)
  rw [eq_div_iff hp.ne', add_mul, hf, hm]

/-- the sign as it is written -/
def minusDec : Bool → Option Bool
  | true => some true
  | false => none

/-- the digits as a decimal notation -/
def gDec (neg : Bool) (P m : ℕ) (X : ℤ) : Dec :=
  if -4 ≤ X ∧ X < P then
    ⟨minusDec neg, dW (max 1 (X + 1).toNat) (m / 10 ^ (P - 1 - X).toNat),
      fracDec (dW (P - 1 - X).toNat (m % 10 ^ (P - 1 - X).toNat)), none⟩
  else
    ⟨minusDec neg, dW 1 (m / 10 ^ (P - 1)), fracDec (dW (P - 1) (m % 10 ^ (P - 1))),
      some (false, some (decide (X < 0)), dW (max 2 (Nat.log 10 X.natAbs + 1)) X.natAbs)⟩

theorem gDec_proper (neg : Bool) (P m : ℕ) (X : ℤ) : (gDec neg P m X).Proper := by
  unfold gDec
  split_ifs
  · exact ⟨Or.inl (dW_ne (by simp) _), fun u s ds h => by simp at h⟩
  · refine ⟨Or.inl (dW_ne (by simp) _), fun u s ds h => ?_⟩
    simp only [Option.some.injEq, Prod.mk.injEq] at h
    rw [← h.2.2]
    exact dW_ne (by simp) _

theorem gDec_text (neg : Bool) (P m : ℕ) (X : ℤ) :
    (gDec neg P m X).text = (if neg then ['-'] else []) ++ gDigits P m X := by
  have hs : signText (minusDec neg) = if neg then ['-'] else [] := by cases neg <;> rfl
  have hx : signText (some (decide (X < 0))) = [if X < 0 then '-' else '+'] := by
    by_cases h : X < 0 <;> simp [h, signText]
  unfold gDec gDigits
  split_ifs with h
  all_goals simp only [Dec.text, fracDec_text, dW_text, expText, hs, hx]
  all_goals simp_all

theorem gDec_value {P m : ℕ} (hP : 0 < P) (hm : m < 10 ^ P) (neg : Bool) (X : ℤ) :
    (gDec neg P m X).value = (if neg then -1 else 1) * (m * (10:ℝ) ^ (X - P + 1)) := by
  have h10 : (10:ℝ) ≠ 0 := by norm_num
  have hs : ∀ x : ℝ, signed (minusDec neg) x = (if neg then -1 else 1) * x := by
    intro x; cases neg <;> simp [signed, minusDec]
  unfold gDec
  by_cases h : -4 ≤ X ∧ X < P
  · rw [if_pos h]
    simp only [Dec.value]
    rw [hs, mant_val]
    · congr 1
      show _ * 1 = _
      have : (10:ℝ) ^ (P - 1 - X).toNat = (10:ℝ) ^ ((P:ℤ) - 1 - X) := by
        rw [← zpow_natCast, Int.toNat_of_nonneg (by omega)]
      rw [mul_one, this, div_eq_mul_inv, ← zpow_neg]
      congr 2; ring
    · rw [Nat.div_lt_iff_lt_mul (by positivity), ← pow_add]
      exact hm.trans_le (Nat.pow_le_pow_right (by norm_num) (by omega))
  · rw [if_neg h]
    simp only [Dec.value]
    rw [hs, mant_val]
    · congr 1
      have hX : expVal (some (false, some (decide (X < 0)), dW (max 2 (Nat.log 10 X.natAbs + 1)) X.natAbs)) = (10:ℝ) ^ X := by
        have hv : natVal (dW (max 2 (Nat.log 10 X.natAbs + 1)) X.natAbs) = X.natAbs := by
          refine dW_val ?_
          exact (Nat.lt_pow_succ_log_self (by norm_num) _).trans_le
            (Nat.pow_le_pow_right (by norm_num) (le_max_right _ _))
        show (10:ℝ) ^ (signed (some (decide (X < 0))) (wholeVal _)) = _
        rw [wholeVal_nat, hv, ← Real.rpow_intCast]
        congr 1
        unfold signed
        by_cases hx : X < 0
        · simp only [hx, decide_true, if_true]
          have : ((X.natAbs : ℤ)) = -X := by omega
          rw [← Int.cast_natCast, this]; simp
        · simp only [hx, decide_false]
          have : ((X.natAbs : ℤ)) = X := by omega
          rw [← Int.cast_natCast, this]; simp
      rw [hX]
      have : (10:ℝ) ^ (P - 1) = (10:ℝ) ^ ((P:ℤ) - 1) := by
        rw [← zpow_natCast]; congr 1; omega
      rw [this, div_eq_mul_inv, ← zpow_neg, mul_assoc, ← zpow_add₀ h10]
      congr 2; ring
    · rw [Nat.div_lt_iff_lt_mul (by positivity), ← pow_add]
      exact hm.trans_le (Nat.pow_le_pow_right (by norm_num) (by omega))

/-- rounding to a nearest integer -/
def Nearest (rnd : ℝ → ℤ) : Prop := ∀ y, |(rnd y : ℝ) - y| ≤ 1 / 2

theorem gRound_spec {rnd : ℝ → ℤ} (hr : Nearest rnd) {P : ℕ} (hP : 0 < P) {y : ℝ} (hy : 0 < y) :
    (gRound rnd P y).1 < 10 ^ P ∧ ((gRound rnd P y).1 : ℝ) * (10:ℝ) ^ ((gRound rnd P y).2 - P + 1)
      = rnd (y / 10 ^ (Int.log 10 y - P + 1)) * (10:ℝ) ^ (Int.log 10 y - P + 1) := by
  have h10 : (10:ℝ) ≠ 0 := by norm_num
  set e := Int.log 10 y with he
  have hlo : (10:ℝ) ^ e ≤ y := by exact_mod_cast Int.zpow_log_le_self (b := 10) (by norm_num) hy
  have hhi : y < (10:ℝ) ^ (e + 1) := by exact_mod_cast Int.lt_zpow_succ_log_self (b := 10) (by norm_num) y
  set q := (10:ℝ) ^ (e - P + 1) with hq
  have q0 : 0 < q := by positivity
  set z := y / q with hz
  have z1 : (10:ℝ) ^ (P - 1) ≤ z := by
    rw [hz, le_div_iff₀ q0, hq, ← zpow_natCast, ← zpow_add₀ h10]
    refine le_trans (le_of_eq ?_) hlo
    congr 1; omega
  have z2 : z < (10:ℝ) ^ P := by
    rw [hz, div_lt_iff₀ q0, hq, ← zpow_natCast, ← zpow_add₀ h10]
    refine lt_of_lt_of_le hhi (le_of_eq ?_)
    congr 1; omega
  have hn := abs_le.1 (hr z)
  have r1 : (0:ℤ) < rnd z := by
    have : (1:ℝ) ≤ 10 ^ (P - 1) := one_le_pow₀ (by norm_num)
    have : (0:ℝ) < rnd z := by linarith [hn.1]
    exact_mod_cast this
  have r2 : rnd z ≤ 10 ^ P := by
    by_contra hc
    have : (10 ^ P + 1 : ℤ) ≤ rnd z := by omega
    have : ((10 ^ P + 1 : ℤ) : ℝ) ≤ rnd z := by exact_mod_cast this
    push_cast at this
    linarith [hn.2]
  have hc : (((rnd z).toNat : ℕ) : ℝ) = rnd z := by
    rw [← Int.cast_natCast, Int.toNat_of_nonneg r1.le]
  unfold gRound
  simp only [← he, ← hq, ← hz]
  split_ifs with h
  · refine ⟨Nat.pow_lt_pow_right (by norm_num) (by omega), ?_⟩
    rw [← hc, h]
    push_cast
    rw [hq, ← zpow_natCast, ← zpow_natCast, ← zpow_add₀ h10, ← zpow_add₀ h10]
    congr 1; omega
  · refine ⟨?_, by rw [hc]⟩
    have : (rnd z).toNat ≤ 10 ^ P := by
      rw [Int.toNat_le]; exact_mod_cast r2
    exact lt_of_le_of_ne this h

end Ecm.Props
