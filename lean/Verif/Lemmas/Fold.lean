/- Least and greatest values collected by a loop. -/
import Mathlib.Data.Real.Basic
import Mathlib.Order.MinMax

namespace Ecm

/-- the least of the listed values, from a start value -/
theorem foldl_min_spec (f : ℕ → ℝ) (N : ℕ) (a : ℝ) :
    (List.range N).foldl (fun s i => min s (f i)) a ≤ a ∧
    (∀ i < N, (List.range N).foldl (fun s i => min s (f i)) a ≤ f i) ∧
    ((List.range N).foldl (fun s i => min s (f i)) a = a ∨
      ∃ i < N, (List.range N).foldl (fun s i => min s (f i)) a = f i) := by
  induction N with
  | zero => simp
  | succ N ih =>
    obtain ⟨h1, h2, h3⟩ := ih
    rw [List.range_succ, List.foldl_append, List.foldl_cons, List.foldl_nil]
    set m := (List.range N).foldl (fun s i => min s (f i)) a
    refine ⟨(min_le_left _ _).trans h1, fun i hi => ?_, ?_⟩
    · rcases Nat.lt_succ_iff_lt_or_eq.1 hi with h | rfl
      · exact (min_le_left _ _).trans (h2 i h)
      · exact min_le_right _ _
    · rcases min_choice m (f N) with h | h
      · rw [h]
        rcases h3 with h3 | ⟨i, hi, h3⟩
        · exact Or.inl h3
        · exact Or.inr ⟨i, hi.trans N.lt_succ_self, h3⟩
      · exact Or.inr ⟨N, N.lt_succ_self, h⟩

/-- the greatest of the listed values, from a start value -/
theorem foldl_max_spec (f : ℕ → ℝ) (N : ℕ) (a : ℝ) :
    a ≤ (List.range N).foldl (fun s i => max s (f i)) a ∧
    (∀ i < N, f i ≤ (List.range N).foldl (fun s i => max s (f i)) a) ∧
    ((List.range N).foldl (fun s i => max s (f i)) a = a ∨
      ∃ i < N, (List.range N).foldl (fun s i => max s (f i)) a = f i) := by
  induction N with
  | zero => simp
  | succ N ih =>
    obtain ⟨h1, h2, h3⟩ := ih
    rw [List.range_succ, List.foldl_append, List.foldl_cons, List.foldl_nil]
    set m := (List.range N).foldl (fun s i => max s (f i)) a
    refine ⟨h1.trans (le_max_left _ _), fun i hi => ?_, ?_⟩
    · rcases Nat.lt_succ_iff_lt_or_eq.1 hi with h | rfl
      · exact (h2 i h).trans (le_max_left _ _)
      · exact le_max_right _ _
    · rcases max_choice m (f N) with h | h
      · rw [h]
        rcases h3 with h3 | ⟨i, hi, h3⟩
        · exact Or.inl h3
        · exact Or.inr ⟨i, hi.trans N.lt_succ_self, h3⟩
      · exact Or.inr ⟨N, N.lt_succ_self, h⟩

end Ecm
