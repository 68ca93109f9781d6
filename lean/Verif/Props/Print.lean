/- Property theorems C106: what the code writes - numbers, the lines of the example program, the log of the parameters
   (src/ecmech/ECMech_matModelBase.h:12-13, 57-70; miniapp/orientation_evolution.cxx:303, 354, 365, 543-558). -/
import Verif.Lemmas.Print
import Verif.Props.Params

namespace Ecm.Props
open Ecm
variable {rnd : ℝ → ℤ}

/-- a number written with `P` significant digits: its relative error, and no error if it has no more digits -/
def Shows (P : ℕ) (x : ℝ) (a : Dec) : Prop :=
  a.Proper ∧ |a.value - x| ≤ 1 / 2 * (10 : ℝ) ^ (1 - P : ℤ) * |x| ∧
    ∀ n k : ℤ, x = n * (10 : ℝ) ^ k → |n| < 10 ^ P → a.value = x

/-- **C106 numbers.** What is written for a number is a decimal notation whose value differs from it by at most half a
    unit of the last digit, relative to the number at most half of 10^(1 - P); a number with at most `P` significant
    digits is written exactly. -/
theorem C106_number (hr : Nearest rnd) {P : ℕ} (hP : 0 < P) (x : ℝ) : ∃ a, a.text = gText rnd P x ∧ Shows P x a := by
  classical
  have h10 : (10:ℝ) ≠ 0 := by norm_num
  by_cases hx : x = 0
  · subst hx
    refine ⟨⟨none, [0], none, none⟩, by simp [gText, Dec.text, signText, digitText, fracText, expText],
      ⟨Or.inl (by simp), fun u s ds h => by simp at h⟩, ?_, fun n k h1 h2 => ?_⟩ <;>
    simp [Dec.value, signed, wholeVal, fracVal, expVal]
  have hy : 0 < |x| := abs_pos.2 hx
  obtain ⟨g1, g2⟩ := gRound_spec hr hP hy
  have hlo : (10:ℝ) ^ Int.log 10 |x| ≤ |x| := by exact_mod_cast Int.zpow_log_le_self (b := 10) (by norm_num) hy
  set e := Int.log 10 |x| with he
  set q := (10:ℝ) ^ (e - P + 1) with hq
  have q0 : 0 < q := by positivity
  set m := gRound rnd P |x|
  have hv := gDec_value hP g1 (decide (x < 0)) m.2
  rw [g2] at hv
  have hsx : x = (if decide (x < 0) = true then -1 else 1) * |x| := by
    by_cases h : x < 0
    · simp [h, abs_of_neg h]
    · simp [h, abs_of_nonneg (not_lt.1 h)]
  have hs1 : |(if decide (x < 0) = true then (-1:ℝ) else 1)| = 1 := by split_ifs <;> simp
  refine ⟨gDec (decide (x < 0)) P m.1 m.2, ?_, gDec_proper _ _ _ _, ?_, fun n k hn hk => ?_⟩
  · rw [gDec_text]; unfold gText
    rw [if_neg hx]
    simp only [decide_eq_true_eq]
    rfl
  · rw [hv]
    have : (if decide (x < 0) = true then (-1:ℝ) else 1) * (rnd (|x| / q) * q) - x
        = (if decide (x < 0) = true then (-1:ℝ) else 1) * ((rnd (|x| / q) - |x| / q) * q) := by
      conv_lhs => rw [show ∀ a b : ℝ, a - b = a + -b from fun a b => sub_eq_add_neg a b]
      have h2 : |x| / q * q = |x| := div_mul_cancel₀ _ q0.ne'
      rw [sub_mul, h2, mul_sub, ← hsx]; ring
    rw [this, abs_mul, hs1, one_mul, abs_mul, abs_of_pos q0]
    have h3 : q = (10:ℝ) ^ (1 - P : ℤ) * (10:ℝ) ^ e := by
      rw [hq, ← zpow_add₀ h10]; congr 1; ring
    have h4 : q ≤ (10:ℝ) ^ (1 - P : ℤ) * |x| := by
      rw [h3]; exact mul_le_mul_of_nonneg_left hlo (by positivity)
    have := mul_le_mul_of_nonneg_right (hr (|x| / q)) q0.le
    linarith
  · -- an integer multiple of the last digit
    have hxa : |x| = |(n:ℝ)| * (10:ℝ) ^ k := by rw [hn, abs_mul, abs_of_pos (by positivity : (0:ℝ) < 10 ^ k)]
    have hk' : |(n:ℝ)| < (10:ℝ) ^ P := by exact_mod_cast hk
    have hj : 0 ≤ k - (e - P + 1) := by
      by_contra hc
      have h5 : |x| < (10:ℝ) ^ (k + P) := by
        rw [hxa, zpow_add₀ h10, mul_comm, zpow_natCast]
        exact mul_lt_mul_of_pos_left hk' (by positivity)
      have h6 : (10:ℝ) ^ e < (10:ℝ) ^ (k + P) := lt_of_le_of_lt hlo h5
      have := (zpow_lt_zpow_iff_right₀ (by norm_num : (1:ℝ) < 10)).1 h6
      omega
    obtain ⟨j, hj'⟩ := Int.eq_ofNat_of_zero_le hj
    have hz : |x| / q = ((|n| * 10 ^ j : ℤ) : ℝ) := by
      rw [div_eq_iff q0.ne', hxa, hq]
      push_cast
      rw [mul_assoc, ← zpow_natCast, ← zpow_add₀ h10]
      congr 2; omega
    have hrz : rnd (|x| / q) = |n| * 10 ^ j := by
      have h7 := hr (|x| / q)
      rw [hz] at h7 ⊢
      have h8 : |((rnd ((|n| * 10 ^ j : ℤ) : ℝ) - |n| * 10 ^ j : ℤ) : ℝ)| ≤ 1 / 2 := by
        push_cast; push_cast at h7; exact h7
      have h9 : |rnd ((|n| * 10 ^ j : ℤ) : ℝ) - |n| * 10 ^ j| < 1 := by
        have : ((|rnd ((|n| * 10 ^ j : ℤ) : ℝ) - |n| * 10 ^ j| : ℤ) : ℝ) < 1 := by
          rw [Int.cast_abs]; linarith
        exact_mod_cast this
      have := Int.abs_lt_one_iff.1 h9
      omega
    rw [hv, hrz, ← hz, div_mul_cancel₀ _ q0.ne', ← hsx]

/-- reading a written number gives it back to half a unit of its last digit, and what follows is left -/
theorem C106_reads (hr : Nearest rnd) {P : ℕ} (hP : 0 < P) (x : ℝ) {l : List Char} (hl : Ends l) :
    ∃ m k : ℤ, readDouble (gText rnd P x ++ l) = some (m, k, l) ∧
      |decimal m k - x| ≤ 1 / 2 * (10 : ℝ) ^ (1 - P : ℤ) * |x| := by
  obtain ⟨a, ht, hp, he, -⟩ := C106_number hr hP x
  obtain ⟨m, k, h1, h2⟩ := C103_number a hp (b := []) (fun c hc => by simp at hc) hl
  rw [ht] at h1
  exact ⟨m, k, h1, by rw [h2]; exact he⟩

/-- **C106 natural numbers** are written in full -/
theorem C106_nat (m : ℕ) : ∃ ds, ds ≠ [] ∧ natText m = digitText ds ∧ natVal ds = m :=
  ⟨dW (Nat.log 10 m + 1) m, dW_ne (by simp) _, (dW_text _ _).symm,
    dW_val (Nat.lt_pow_succ_log_self (by norm_num) _)⟩

/-- **C106 integers** (the options of the log) are written exactly and with their sign -/
theorem C106_int (m : ℤ) : ∃ a : Dec, a.text = intText m ∧ a.Proper ∧ a.value = m := by
  obtain ⟨ds, h0, h1, h2⟩ := C106_nat m.natAbs
  have hv : wholeVal ds = |(m : ℝ)| := by rw [wholeVal_nat, h2, Nat.cast_natAbs, Int.cast_abs]
  by_cases hm : m < 0
  · refine ⟨⟨some true, ds, none, none⟩, ?_, ⟨Or.inl h0, by simp⟩, ?_⟩
    · simp [Dec.text, signText, fracText, expText, intText, hm, h1]
    · have : (m : ℝ) < 0 := by exact_mod_cast hm
      simp [Dec.value, signed, fracVal, expVal, hv, abs_of_neg this]
  · refine ⟨⟨none, ds, none, none⟩, ?_, ⟨Or.inl h0, by simp⟩, ?_⟩
    · simp [Dec.text, signText, fracText, expText, intText, hm, h1]
    · have : (0:ℝ) ≤ m := by exact_mod_cast not_lt.1 hm
      simp [Dec.value, signed, fracVal, expVal, hv, abs_of_nonneg this]

/-- **C106 the options in the log**: the integers that were given, in their order, each exactly -/
theorem C106_options (opts : List ℤ) : ∃ as : List Dec, as.map Dec.text = opts.map intText ∧
    List.Forall₂ (fun (m : ℤ) (a : Dec) => a.Proper ∧ a.value = m) opts as := by
  choose a ha hs using C106_int
  refine ⟨opts.map a, ?_, ?_⟩
  · rw [List.map_map]; exact List.map_congr_left fun x _ => ha x
  · rw [List.forall₂_map_right_iff, List.forall₂_same]; exact fun x _ => hs x

/-- **C106 the lines around the results**: three announcements, and at the end the number of steps and the time -/
theorem C106_frame (hr : Nearest rnd) (out : List (Vec 6)) (time : ℝ) :
    (drvOutput rnd out time).take 4 = [[], "About to initialize class".toList,
      "Class has been completely initialized".toList, "Data is now initialized".toList] ∧
    ∃ (ds : List (Fin 10)) (a : Dec), (drvOutput rnd out time).drop (4 + out.length) = [[],
        "Run time of set-up, material, and retrieve kernels over ".toList ++ (digitText ds ++
          (" time steps is: ".toList ++ (a.text ++ "(s)".toList)))] ∧ natVal ds = 60 ∧ Shows 6 time a := by
  obtain ⟨ds, -, h1, h2⟩ := C106_nat 60
  obtain ⟨a, ha, hs⟩ := C106_number hr (P := 6) (by norm_num) time
  refine ⟨by simp [drvOutput], ds, a, ?_, h2, hs⟩
  unfold drvOutput
  rw [← List.drop_drop, List.drop_left' (by rfl), List.drop_left' (by simp), show drvSteps = 60 from rfl, h1, ha]

/-- **C106 the line of a step** has the number of the step and six numbers that are read, one after the other, as the
    components of the mean stress to 5e-6 of their size. -/
theorem C106_line (hr : Nearest rnd) (i : ℕ) (s : Vec 6) :
    ∃ (ds : List (Fin 10)) (t : List Char) (a : Fin 6 → Dec),
      stepLine rnd i s = "Step# ".toList ++ (digitText ds ++ (" Stress:".toList ++ t)) ∧ natVal ds = i + 1 ∧
      Written [a 0, a 1, a 2, a 3, a 4, a 5] t ∧ ∀ j, Shows 6 (s j) (a j) := by
  obtain ⟨ds, -, h1, h2⟩ := C106_nat (i + 1)
  choose a ha hs using fun j : Fin 6 => C106_number hr (P := 6) (by norm_num) (s j)
  refine ⟨ds, ' ' :: ((a 0).text ++ ' ' :: ((a 1).text ++ ' ' :: ((a 2).text ++ ' ' :: ((a 3).text ++ ' ' :: ((a 4).text
    ++ ' ' :: ((a 5).text ++ [' '])))))), a, ?_, h2, ?_, hs⟩
  · unfold stepLine
    rw [h1]
    simp [List.ofFn_succ, ha, Fin.succ_zero_eq_one]
  · have bl : Blank [' '] := by intro c hc; simp at hc; subst hc; decide
    have en : ∀ l, Ends (' ' :: l) := fun l => Or.inr ⟨' ', l, rfl, by decide⟩
    exact ⟨[' '], _, bl, (hs 0).1, rfl, en _, [' '], _, bl, (hs 1).1, rfl, en _, [' '], _, bl, (hs 2).1, rfl, en _,
      [' '], _, bl, (hs 3).1, rfl, en _, [' '], _, bl, (hs 4).1, rfl, en _, [' '], _, bl, (hs 5).1, rfl, en _, trivial⟩

theorem drvLoop_length {T : MType} (X : Ext) (mm : MM T) (dt : ℝ) (nsv N k : ℕ) (m : DrvMem) (out : List (Vec 6))
    (p : DrvMem × List (Vec 6)) (h : drvLoop X mm dt nsv N k m out = .ok p) : p.2.length = out.length + k := by
  induction k generalizing m out with
  | zero => cases h; rfl
  | succ k ih =>
    unfold drvLoop at h
    split at h
    · cases h
    · cases h
    · rw [ih _ _ h]; simp; omega

/-- **C106 the output of the example program**: a run that reaches its end writes sixty-six lines, after four of
    announcements one for each step with the mean stress of that step; nothing else of the results is written. -/
theorem C106_output (hr : Nearest rnd) (R : Reader) (u : ℕ → ℝ) (omp gpu : Bool) (S : Solver 1) (X : Ext)
    (g : ℕ → ℕ → ℝ) (files : String → List String) (optionFile : String) (out : List (Vec 6)) (time : ℝ)
    (h : drvMain R u omp gpu S X g files optionFile = .ok out) :
    (drvOutput rnd out time).length = 66 ∧ ∀ j < 60, ∃ s line, out[j]? = some s ∧
      (drvOutput rnd out time)[4 + j]? = some line ∧
      ∃ (ds : List (Fin 10)) (t : List Char) (a : Fin 6 → Dec),
        line = "Step# ".toList ++ (digitText ds ++ (" Stress:".toList ++ t)) ∧ natVal ds = j + 1 ∧
        Written [a 0, a 1, a 2, a 3, a 4, a 5] t ∧ ∀ c, Shows 6 (s c) (a c) := by
  have hl : out.length = 60 := by
    unfold drvMain at h
    split at h
    · cases h
    · cases h
    · split at h
      · cases h
      · cases h
      · rename_i p hp
        cases h
        simpa [drvSteps] using drvLoop_length _ _ _ _ _ _ _ _ _ hp
  constructor
  · simp [drvOutput, hl]
  · intro j hj
    refine ⟨out[j]'(by omega), stepLine rnd j (out[j]'(by omega)), by simp [hl, hj], ?_, C106_line hr _ _⟩
    unfold drvOutput
    rw [List.getElem?_append_right (by simp), List.getElem?_append_left (by simp [hl]; omega)]
    simp [hl, hj]

/-- **C106 the log of the parameters** of a model lists the numbers that were given, in their order, each
    to six digits, and the integers exactly. -/
theorem C106_log (hr : Nearest rnd) {T : MType} (S : Solver 1) (m : MM T) (opts : List ℤ) (pars : List ℝ)
    (strs : List String) :
    ∃ as os : List Dec, List.Forall₂ (Shows 6) pars as ∧
      List.Forall₂ (fun (k : ℤ) (a : Dec) => a.Proper ∧ a.value = k) opts os ∧
      (m.initFromParams S opts pars strs).1.logParameters rnd
      = "evptn constitutive model\n".toList ++ (("  opts : ".toList ++ (List.intercalate ", ".toList (os.map Dec.text) ++ ['\n']))
        ++ (("  pars : ".toList ++ (List.intercalate ", ".toList (as.map Dec.text) ++ ['\n']))
          ++ dumpVec "  strs".toList (strs.map String.toList))) := by
  choose a ha hs using fun x : ℝ => C106_number hr (P := 6) (by norm_num) x
  obtain ⟨os, ho, hos⟩ := C106_options opts
  refine ⟨pars.map a, os, ?_, hos, ?_⟩
  · rw [List.forall₂_map_right_iff, List.forall₂_same]; exact fun x _ => hs x
  · unfold MM.logParameters
    rw [C40_model, ho]
    have : (pars.map a).map Dec.text = pars.map (gText rnd 6) := by
      rw [List.map_map]; exact List.map_congr_left fun x _ => ha x
    rw [this]
    simp [dumpVec]

/-- six digits of a number that is not half way between two of them -/
theorem gText_eq (hr : Nearest rnd) {x : ℝ} {m : ℕ} {e : ℤ} (h1 : (10:ℝ) ^ e ≤ |x|) (h2 : |x| < (10:ℝ) ^ (e + 1))
    (h3 : |(m:ℝ) - |x| / 10 ^ (e - 5)| < 1 / 2) (hm : m < 10 ^ 6) :
    gText rnd 6 x = (if decide (x < 0) then ['-'] else []) ++ gDigits 6 m e := by
  have hp : 0 < |x| := lt_of_lt_of_le (by positivity) h1
  have hx : x ≠ 0 := abs_pos.1 hp
  have hl : Int.log 10 |x| = e := by
    apply le_antisymm
    · have := (Int.lt_zpow_iff_log_lt (b := 10) (by norm_num) hp (x := e + 1)).1 (by exact_mod_cast h2)
      omega
    · exact (Int.zpow_le_iff_le_log (b := 10) (by norm_num) hp).1 (by exact_mod_cast h1)
  have hq : rnd (|x| / 10 ^ (e - 5)) = m := by
    have h4 := hr (|x| / 10 ^ (e - 5))
    have h5 : |((rnd (|x| / 10 ^ (e - 5)) - m : ℤ) : ℝ)| < 1 := by
      push_cast
      rw [abs_le] at h4
      rw [abs_lt] at h3 ⊢
      constructor <;> linarith [h4.1, h4.2, h3.1, h3.2]
    have h6 : |rnd (|x| / 10 ^ (e - 5)) - m| < 1 := by
      have : ((|rnd (|x| / 10 ^ (e - 5)) - m| : ℤ) : ℝ) < 1 := by rw [Int.cast_abs]; exact h5
      exact_mod_cast this
    have := Int.abs_lt_one_iff.1 h6
    omega
  have hg : gRound rnd 6 |x| = (m, e) := by
    unfold gRound
    rw [hl]
    simp only [show e - ((6:ℕ):ℤ) + 1 = e - 5 by push_cast; ring, hq, Int.toNat_natCast]
    rw [if_neg hm.ne]
  unfold gText
  rw [if_neg hx, hg]
  simp

/-- **C106 refuted: the log does not determine the parameters.**  The last parameter of miniapp/props.txt, -1.0307952, is
    logged as -1.0308: a model made from the logged number has the same log, but a reference temperature that is more
    than a thousandth of a kelvin higher. -/
theorem C106_refuted_log (hr : Nearest rnd) {T : MType} (S : Solver 1) (m : MM T) (opts : List ℤ) (pars : List ℝ)
    (strs : List String) :
    (m.initFromParams S opts (pars ++ [-1.0307952]) strs).1.logParameters rnd
      = (m.initFromParams S opts (pars ++ [-1.0308]) strs).1.logParameters rnd ∧
    gText rnd 6 (-1.0307952) = "-1.0308".toList ∧
    ∀ iso rho bulk gamma, (Eos.mk iso rho bulk 0.003435984 gamma (-1.0307952)).tK0 + 1 / 1000
      < (Eos.mk iso rho bulk 0.003435984 gamma (-1.0308)).tK0 := by
  have a1 : |(-1.0307952:ℝ)| = 1.0307952 := by rw [abs_neg, abs_of_pos (by norm_num)]
  have a2 : |(-1.0308:ℝ)| = 1.0308 := by rw [abs_neg, abs_of_pos (by norm_num)]
  have t1 := gText_eq hr (x := -1.0307952) (m := 103080) (e := 0) (by rw [a1]; norm_num) (by rw [a1]; norm_num)
    (by rw [a1, abs_lt]; constructor <;> norm_num) (by norm_num)
  have t2 := gText_eq hr (x := -1.0308) (m := 103080) (e := 0) (by rw [a2]; norm_num) (by rw [a2]; norm_num)
    (by rw [a2, abs_lt]; constructor <;> norm_num) (by norm_num)
  have n1 : decide ((-1.0307952:ℝ) < 0) = true := by norm_num
  have n2 : decide ((-1.0308:ℝ) < 0) = true := by norm_num
  rw [n1] at t1
  rw [n2] at t2
  refine ⟨?_, ?_, fun iso rho bulk gamma => ?_⟩
  · unfold MM.logParameters
    rw [C40_model, C40_model]
    simp only [List.map_append, List.map_cons, List.map_nil, t1, t2]
  · rw [t1]; decide +kernel
  · simp only [Eos.tK0, Eos.dtde0]; norm_num

/-- hypotheses: rounding half up is a rounding to nearest; some numbers of miniapp/props.txt as they are logged, with and
    without exponent, and the beginning of a line of the output -/
example : Nearest round ∧ gText round 6 168400 = "168400".toList ∧ gText round 6 5e9 = "5e+09".toList ∧
    gText round 6 1e-10 = "1e-10".toList ∧ gText round 6 0.003435984 = "0.00343598".toList ∧
    natText 60 = "60".toList ∧ intText (-12) = "-12".toList := by
  have hr : Nearest round := fun y => by rw [abs_sub_comm]; exact abs_sub_round y
  have p : ∀ {x : ℝ}, 0 < x → decide (x < 0) = false := fun h => decide_eq_false (not_lt.2 h.le)
  refine ⟨hr, ?_, ?_, ?_, ?_, by decide +kernel, by decide +kernel⟩
  · rw [gText_eq hr (m := 168400) (e := 5) (by rw [abs_of_pos (by norm_num)]; norm_num)
      (by rw [abs_of_pos (by norm_num)]; norm_num) (by rw [abs_of_pos (by norm_num : (0:ℝ) < 168400)]; norm_num) (by norm_num),
      p (by norm_num)]
    decide +kernel
  · rw [gText_eq hr (m := 500000) (e := 9) (by rw [abs_of_pos (by norm_num)]; norm_num)
      (by rw [abs_of_pos (by norm_num)]; norm_num) (by rw [abs_of_pos (by norm_num : (0:ℝ) < 5e9)]; norm_num) (by norm_num),
      p (by norm_num)]
    decide +kernel
  · rw [gText_eq hr (m := 100000) (e := -10) (by rw [abs_of_pos (by norm_num)]; norm_num)
      (by rw [abs_of_pos (by norm_num)]; norm_num) (by rw [abs_of_pos (by norm_num : (0:ℝ) < 1e-10)]; norm_num) (by norm_num),
      p (by norm_num)]
    decide +kernel
  · rw [gText_eq hr (m := 343598) (e := -3) (by rw [abs_of_pos (by norm_num)]; norm_num)
      (by rw [abs_of_pos (by norm_num)]; norm_num)
      (by rw [abs_of_pos (by norm_num : (0:ℝ) < 0.003435984), abs_lt]; constructor <;> norm_num) (by norm_num),
      p (by norm_num)]
    decide +kernel

/-- hypotheses of the theorem on the output: the run with the shipped files reaches its end (C87) and writes 66 lines -/
example (g : ℕ → ℕ → ℝ) (time : ℝ) : ∃ out, drvMain stdReader (fun k => if k % 2 = 0 then 1 else -1 / 2) true false
      (idealSolver 1) ⟨idealSolver 8, fun _ B => some B, 1⟩ g shippedFiles "./option_openmp.txt" = .ok out ∧ (drvOutput round out time).length = 66 := by
  have hr : Nearest round := fun y => by rw [abs_sub_comm]; exact abs_sub_round y
  obtain ⟨out, h, -⟩ := C87_runs (u := fun k => if k % 2 = 0 then 1 else -1 / 2) (omp := true) (gpu := false)
    (X := ⟨idealSolver 8, fun _ B => some B, 1⟩) (.openmp rfl) (fun i _ h => by
      have h0 := congrFun h 0
      have : (4 * i + ((0 : Fin 4) : ℕ)) % 2 = 0 := by simp; omega
      simp only [this] at h0
      norm_num at h0) (idealSolver_finds 1) (idealSolver_finds 8) (fun _ _ => rfl) g
  exact ⟨out, h, (C106_output hr _ _ _ _ _ _ _ _ _ _ time h).1⟩

end Ecm.Props
