/- Property theorems C116: vectors and matrices as the tests print them (src/ecmech/ECMech_util.h:1325-1356). -/
import Verif.Model.PrintVec
import Verif.Props.Print

namespace Ecm.Props
open Ecm Spec

variable {rnd : ℝ → ℤ}

/-- zero or between 1e-400 and 1e400 in size; all finite doubles are -/
def DoubleSize (x : ℝ) : Prop := x = 0 ∨ ((10 : ℝ) ^ (-400 : ℤ) ≤ |x| ∧ |x| ≤ (10 : ℝ) ^ (400 : ℤ))

/-- the field of a number: blanks, the number with 14 digits, one blank; 22 characters -/
def Field (x : ℝ) (l : List Char) : Prop :=
  ∃ (k : ℕ) (a : Dec), l = List.replicate k ' ' ++ (a.text ++ [' ']) ∧ Shows 14 x a ∧ (DoubleSize x → l.length = 22)

theorem digitsW_length (w m : ℕ) : (digitsW w m).length = w := by
  induction w generalizing m with
  | zero => rfl
  | succ w ih => simp [digitsW, ih]

theorem dropZeros_length (l : List Char) : (dropZeros l).length ≤ l.length := by
  induction l with
  | nil => simp [dropZeros]
  | cons c l ih =>
    simp only [dropZeros]
    split_ifs
    · simp
    · simpa using ih

theorem fracOut_length (l : List Char) : (fracOut l).length ≤ l.length + 1 := by
  unfold fracOut
  split_ifs
  · simp
  · simpa using dropZeros_length l

theorem gDigits_length (m : ℕ) {X : ℤ} (h1 : -999 ≤ X) (h2 : X ≤ 999) : (gDigits 14 m X).length ≤ 20 := by
  unfold gDigits
  split_ifs with h
  · have hf := fracOut_length (digitsW ((14 : ℕ) - 1 - X).toNat (m % 10 ^ ((14 : ℕ) - 1 - X).toNat))
    simp only [List.length_append, digitsW_length] at hf ⊢
    omega
  all_goals
    have hf := fracOut_length (digitsW (14 - 1) (m % 10 ^ (14 - 1)))
    have hl : Nat.log 10 X.natAbs < 3 := by
      rcases Nat.eq_zero_or_pos X.natAbs with h0 | h0
      · rw [h0]; simp
      · exact Nat.log_lt_of_lt_pow (by omega) (by omega)
    simp only [List.length_append, List.length_cons, digitsW_length] at hf ⊢
    omega

theorem gText_length {x : ℝ} (hx : DoubleSize x) : (gText rnd 14 x).length ≤ 21 := by
  unfold gText
  have hs : (if x < 0 then ['-'] else []).length ≤ 1 := by split_ifs <;> simp
  rw [List.length_append]
  by_cases h0 : x = 0
  · rw [if_pos h0]
    simp only [List.length_cons, List.length_nil]
    omega
  rw [if_neg h0]
  obtain ⟨h1, h2⟩ := hx.resolve_left h0
  have hp : 0 < |x| := abs_pos.2 h0
  have e1 : -400 ≤ Int.log 10 |x| := by
    rw [← Int.zpow_le_iff_le_log (by norm_num) hp]
    exact_mod_cast h1
  have e2 : Int.log 10 |x| < 401 := by
    rw [← Int.lt_zpow_iff_log_lt (by norm_num) hp]
    refine lt_of_le_of_lt h2 ?_
    push_cast
    exact zpow_lt_zpow_right₀ (by norm_num) (by norm_num)
  have e3 : (gRound rnd 14 |x|).2 = Int.log 10 |x| ∨ (gRound rnd 14 |x|).2 = Int.log 10 |x| + 1 := by
    unfold gRound
    simp only
    split_ifs
    · exact Or.inr rfl
    · exact Or.inl rfl
  have := gDigits_length (gRound rnd 14 |x|).1 (X := (gRound rnd 14 |x|).2) (by omega) (by omega)
  omega

/-- the text of one entry -/
noncomputable def entryText (rnd : ℝ → ℤ) (x : ℝ) : List Char := padLeft 21 (gText rnd 14 x) ++ [' ']

theorem entry_field (hr : Nearest rnd) (x : ℝ) : Field x (entryText rnd x) := by
  obtain ⟨a, ha, hs⟩ := C106_number hr (P := 14) (by norm_num) x
  refine ⟨21 - (gText rnd 14 x).length, a, by rw [entryText, padLeft, ha, List.append_assoc], hs, fun hx => ?_⟩
  have := gText_length (rnd := rnd) hx
  simp only [entryText, padLeft, List.length_append, List.length_replicate, List.length_cons, List.length_nil]
  omega

theorem foldl_entry (rnd : ℝ → ℤ) (f : ℕ → ℝ) (l : List ℕ) (o : OStr) :
    (l.foldl (fun o i => o.entry rnd (f i)) o).text = o.text ++ (l.map fun i => entryText rnd (f i)).flatten ∧
    (l.foldl (fun o i => o.entry rnd (f i)) o).prec = if l = [] then o.prec else 14 := by
  induction l generalizing o with
  | nil => simp
  | cons i l ih =>
    obtain ⟨h1, h2⟩ := ih (o.entry rnd (f i))
    rw [List.foldl_cons, h1, h2]
    refine ⟨?_, ?_⟩
    · simp [OStr.entry, OStr.chars, entryText]
    · simp [OStr.entry, OStr.chars]

/-- C116 vectors: one line of fields, in the order of the entries. -/
theorem C116_vec (hr : Nearest rnd) (y : ℕ → ℝ) (n : ℕ) (o : OStr) : ∃ f : ℕ → List Char,
    (printVec rnd y n o).text = o.text ++ (((List.range n).map f).flatten ++ ['\n']) ∧ ∀ i, Field (y i) (f i) := by
  refine ⟨fun i => entryText rnd (y i), ?_, fun i => entry_field hr _⟩
  unfold printVec
  rw [OStr.chars, (foldl_entry rnd y _ o).1, List.append_assoc]

/-- C116 matrices: one line for each row, in it one field for each column. -/
theorem C116_mat (hr : Nearest rnd) (n : ℕ) (A : ℕ → ℝ) (o : OStr) : ∃ f : ℕ → ℕ → List Char,
    (printMat rnd n A o).text = o.text ++ ((List.range n).map fun i => ((List.range n).map (f i)).flatten ++ ['\n']).flatten ∧
    ∀ i j, Field (A (i * n + j)) (f i j) := by
  refine ⟨fun i j => entryText rnd (A (i * n + j)), ?_, fun i j => entry_field hr _⟩
  unfold printMat
  generalize List.range n = l
  have key : ∀ (k : List ℕ) (o : OStr), (k.foldl (fun o iX =>
      (l.foldl (fun o jX => o.entry rnd (A (iX * n + jX))) o).chars ['\n']) o).text
      = o.text ++ (k.map fun i => (l.map fun j => entryText rnd (A (i * n + j))).flatten ++ ['\n']).flatten := by
    intro k
    induction k with
    | nil => intro o; simp
    | cons i k ih =>
      intro o
      rw [List.foldl_cons, ih, OStr.chars, (foldl_entry rnd (fun j => A (i * n + j)) l o).1]
      simp
  exact key l o

theorem flatten_column {n : ℕ} (f : ℕ → List Char) (h : ∀ i < n, (f i).length = 22) (r : List Char) :
    ∀ j < n, ((((List.range n).map f).flatten ++ r).drop (22 * j)).take 22 = f j := by
  induction n generalizing r with
  | zero => intro j hj; omega
  | succ n ih =>
    intro j hj
    rw [List.range_succ, List.map_append, List.flatten_append, List.append_assoc]
    rcases Nat.lt_succ_iff_lt_or_eq.1 hj with h1 | h1
    · exact ih (fun i hi => h i (by omega)) _ j h1
    · subst h1
      have hl : ∀ k ≤ j, (((List.range k).map f).flatten).length = 22 * k := by
        intro k hk
        induction k with
        | zero => simp
        | succ k ihk =>
          rw [List.range_succ, List.map_append, List.flatten_append, List.length_append, ihk (by omega)]
          simp [h k (by omega)]
          omega
      rw [List.drop_append_of_le_length (by rw [hl j le_rfl]), List.drop_of_length_le (by rw [hl j le_rfl])]
      simp [h j (by omega)]

/-- C116 columns: with doubles the entry with number `j` is found in the columns from 22 j on, so that the columns of a matrix
    stand below each other. -/
theorem C116_columns (hr : Nearest rnd) (y : ℕ → ℝ) (n p : ℕ) (hy : ∀ i < n, DoubleSize (y i)) :
    (printVec rnd y n ⟨p, []⟩).text.length = 22 * n + 1 ∧
    ∀ j < n, Field (y j) (((printVec rnd y n ⟨p, []⟩).text.drop (22 * j)).take 22) := by
  obtain ⟨f, h1, h2⟩ := C116_vec hr y n ⟨p, []⟩
  have hl : ∀ i < n, (f i).length = 22 := by
    intro i hi
    obtain ⟨k, a, -, -, h⟩ := h2 i
    exact h (hy i hi)
  rw [h1, List.nil_append]
  constructor
  · have : ∀ k ≤ n, (((List.range k).map f).flatten).length = 22 * k := by
      intro k hk
      induction k with
      | zero => simp
      | succ k ihk =>
        rw [List.range_succ, List.map_append, List.flatten_append, List.length_append, ihk (by omega)]
        simp [hl k (by omega)]
        omega
    rw [List.length_append, this n le_rfl]
    rfl
  · intro j hj
    rw [flatten_column f hl _ j hj]
    exact h2 j

theorem dropWhile_blanks (k : ℕ) (l : List Char) :
    (List.replicate k ' ' ++ l).dropWhile Char.isWhitespace = l.dropWhile Char.isWhitespace := by
  induction k with
  | zero => rfl
  | succ k ih =>
    rw [List.replicate_succ, List.cons_append, List.dropWhile_cons_of_pos (by decide)]
    exact ih

/-- C116 reading back: from a field the number is recovered to 14 digits. -/
theorem C116_reads {x : ℝ} {f : List Char} (hf : Field x f) (l : List Char) : ∃ m k : ℤ,
    readDouble (f ++ l) = some (m, k, ' ' :: l) ∧ |decimal m k - x| ≤ 1 / 2 * (10 : ℝ) ^ (-13 : ℤ) * |x| := by
  obtain ⟨k, a, h1, ⟨hp, he, -⟩, -⟩ := hf
  obtain ⟨m, k', h2, h3⟩ := C103_number a hp (b := []) (fun c hc => by simp at hc) (l := ' ' :: l) (Or.inr ⟨_, _, rfl, by decide⟩)
  refine ⟨m, k', ?_, ?_⟩
  · rw [List.nil_append] at h2
    rw [← h2, h1, List.append_assoc, List.append_assoc]
    unfold readDouble
    rw [dropWhile_blanks]
    rfl
  · rw [h3]
    norm_num at he ⊢
    exact he

/-- C116 the precision of the stream stays at 14 digits after a vector that is not empty. -/
theorem C116_sticky (y : ℕ → ℝ) (n : ℕ) (o : OStr) : (printVec rnd y n o).prec = if n = 0 then o.prec else 14 := by
  unfold printVec
  rw [OStr.chars]
  simp only
  rw [(foldl_entry rnd y _ o).2]
  simp [List.range_eq_nil]

/-- C116 printing a vector changes what is written later: 1/3 is written as 0.333333 before it and otherwise after it. -/
theorem C116_refuted_sticky (hr : Nearest rnd) (y : ℕ → ℝ) (n : ℕ) (t : List Char) :
    ((⟨6, t⟩ : OStr).num rnd (1 / 3)).text = t ++ "0.333333".toList ∧
    ((printVec rnd y (n + 1) ⟨6, t⟩).num rnd (1 / 3)).text ≠ (printVec rnd y (n + 1) ⟨6, t⟩).text ++ "0.333333".toList := by
  have a3 : |(1 / 3 : ℝ)| = 1 / 3 := abs_of_pos (by norm_num)
  have t6 := gText_eq hr (x := 1 / 3) (m := 333333) (e := -1) (by rw [a3]; norm_num) (by rw [a3]; norm_num)
    (by rw [a3, abs_lt]; constructor <;> norm_num) (by norm_num)
  have n3 : decide ((1 / 3 : ℝ) < 0) = false := by norm_num
  rw [n3] at t6
  have t6' : gText rnd 6 (1 / 3) = "0.333333".toList := by rw [t6]; decide +kernel
  refine ⟨by rw [← t6']; rfl, fun h => ?_⟩
  have hp : (printVec rnd y (n + 1) ⟨6, t⟩).prec = 14 := by rw [C116_sticky, if_neg (by omega)]
  rw [OStr.num, hp, OStr.chars] at h
  have h14 : gText rnd 14 (1 / 3) = "0.333333".toList := List.append_cancel_left h
  obtain ⟨m, k, h1, h2⟩ := C106_reads hr (P := 14) (by norm_num) (1 / 3) (l := []) (Or.inl rfl)
  rw [h14, List.append_nil] at h1
  have hv : readDouble "0.333333".toList = some (333333, -6, []) := by decide +kernel
  rw [hv] at h1
  simp only [Option.some.injEq, Prod.mk.injEq, and_true] at h1
  rw [← h1.1, ← h1.2, a3] at h2
  rw [show decimal 333333 (-6) = 333333 / 10 ^ 6 by norm_num [decimal], abs_le] at h2
  norm_num at h2

/-- the hypotheses can be met: rounding half up, the number 2 as a double, and a field of it -/
example : Nearest round ∧ DoubleSize 2 ∧ Field 2 (entryText round 2) := by
  have hr : Nearest round := fun y => by rw [abs_sub_comm]; exact abs_sub_round y
  refine ⟨hr, Or.inr ⟨?_, ?_⟩, entry_field hr 2⟩
  · rw [abs_of_pos (by norm_num : (0:ℝ) < 2)]
    exact le_trans (zpow_le_one_of_nonpos₀ (by norm_num) (by norm_num)) (by norm_num)
  · rw [abs_of_pos (by norm_num : (0:ℝ) < 2)]
    calc (2:ℝ) ≤ 10 ^ (1:ℤ) := by norm_num
      _ ≤ 10 ^ (400:ℤ) := zpow_le_zpow_right₀ (by norm_num) (by norm_num)

/-- the width of 21 is used up by a negative number with an exponent of three digits -/
example : ('-' :: gDigits 14 12345678901235 (-308)) = "-1.2345678901235e-308".toList ∧
    ('-' :: gDigits 14 12345678901235 (-308)).length = 21 := by decide +kernel

end Ecm.Props
