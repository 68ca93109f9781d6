/- Roots of the scalar equations of the one-step tests with dislocation kinetics, enclosed by rational
   certificates. -/
import Verif.Lemmas.KMPoint
import Mathlib.Topology.Order.IntermediateValue

namespace Ecm

/-- strength in the barrier: the axial elastic strain -/
theorem kmRootFcc {N : ℝ} (hN : 50 ≤ N) : ∃ E : ℝ, 40727645792 / 10 ^ 13 ≤ E ∧ E ≤ 40727645813 / 10 ^ 13 ∧
    10 * E + 4 * kmF N ((E - 1 / 250) * 8000) ((E - 1 / 250) * 50) = 1 := by
  have hc : ContinuousOn (fun E : ℝ => 10 * E + 4 * kmF N ((E - 1 / 250) * 8000) ((E - 1 / 250) * 50))
      (Set.Icc (40727645792 / 10 ^ 13) (40727645813 / 10 ^ 13)) := by
    have h1 := kmF_continuousOn (N := N) (gA := 1 / 250) (gI := 8000) (D := 50)
      (s := Set.Icc (40727645792 / 10 ^ 13) (40727645813 / 10 ^ 13)) (by linarith)
      (fun y hy => by have := hy.1; norm_num at this ⊢; linarith) (by norm_num) (by norm_num)
    exact (continuousOn_const.mul continuousOn_id).add (continuousOn_const.mul h1)
  have hlo : 10 * (40727645792 / 10 ^ 13 : ℝ) + 4 * kmF N ((40727645792 / 10 ^ 13 - 1 / 250) * 8000) ((40727645792 / 10 ^ 13 - 1 / 250) * 50) ≤ 1 := by
    have w := kmW_le (N := N) (t := (40727645792 / 10 ^ 13 - 1 / 250) * 8000) (u := 859414748852158 / 10 ^ 15) (l := 72150489160971 / 10 ^ 15)
      (a := 601254076341425 / 10 ^ 15) (c := 548123815785036 / 10 ^ 15) hN (by norm_num) (by norm_num) (by norm_num) (by norm_num)
      (by norm_num) (by norm_num) (by norm_num) (by norm_num) (by norm_num) (by norm_num)
      (by norm_num [Finset.sum_range_succ, Nat.factorial])
    have r := (kmR_between (x := (40727645792 / 10 ^ 13 - 1 / 250) * 50) (l := 0) (u := 907904656021443 / 10 ^ 15) (by rw [abs_of_pos] <;> norm_num)
      (by norm_num [Finset.sum_range_succ, Nat.factorial]) (by norm_num [Finset.sum_range_succ, Nat.factorial])).2
    have w' := w.trans (show _ ≤ (325903760486067 / 10 ^ 15 : ℝ) by norm_num)
    have h := harmonic_le (kmW_pos N (by norm_num)) (kmR_pos (by norm_num)) w' r
    have e : (1 / (1 / (325903760486067 / 10 ^ 15) + 1 / (907904656021443 / 10 ^ 15)) : ℝ) * 4 ≤ 1 - 10 * (40727645792 / 10 ^ 13) := by norm_num
    unfold kmF
    linarith
  have hhi : 1 ≤ 10 * (40727645813 / 10 ^ 13 : ℝ) + 4 * kmF N ((40727645813 / 10 ^ 13 - 1 / 250) * 8000) ((40727645813 / 10 ^ 13 - 1 / 250) * 50) := by
    have w := le_kmW (N := N) (t := (40727645813 / 10 ^ 13 - 1 / 250) * 8000) (l := 859414755796963 / 10 ^ 15) (u := 72150484384971 / 10 ^ 15)
      (a := 601254036541425 / 10 ^ 15) (c := 548123837600363 / 10 ^ 15) (by norm_num) (by norm_num) (by norm_num) (by norm_num)
      (by norm_num) (by norm_num) (by norm_num) (by norm_num) (by norm_num) (by norm_num) (by norm_num)
      (by norm_num [Finset.sum_range_succ, Nat.factorial])
    have r := (kmR_between (x := (40727645813 / 10 ^ 13 - 1 / 250) * 50) (l := 907904682176112 / 10 ^ 15) (u := 250) (by rw [abs_of_pos] <;> norm_num)
      (by norm_num [Finset.sum_range_succ, Nat.factorial]) (by norm_num [Finset.sum_range_succ, Nat.factorial])).1
    have w' := (show (325903863541702 / 10 ^ 15 : ℝ) ≤ _ by norm_num).trans w
    have h := harmonic_le (by norm_num) (by norm_num) w' r
    have e : 1 - 10 * (40727645813 / 10 ^ 13) ≤ (1 / (1 / (325903863541702 / 10 ^ 15) + 1 / (907904682176112 / 10 ^ 15)) : ℝ) * 4 := by norm_num
    unfold kmF
    linarith
  obtain ⟨E, ⟨h1, h2⟩, h3⟩ := intermediate_value_Icc (by norm_num) hc ⟨hlo, hhi⟩
  exact ⟨E, h1, h2, h3⟩

/-- strength as athermal threshold: the axial elastic strain -/
theorem kmRootBcc {N : ℝ} (hN : 50 ≤ N) : ∃ E : ℝ, 23952767204 / 10 ^ 13 ≤ E ∧ E ≤ 23952767405 / 10 ^ 13 ∧
    10 * E + 4 * kmF N ((E - 1 / 8000) * 250) ((E - 1 / 8000) * 50) = 1 := by
  have hc : ContinuousOn (fun E : ℝ => 10 * E + 4 * kmF N ((E - 1 / 8000) * 250) ((E - 1 / 8000) * 50))
      (Set.Icc (23952767204 / 10 ^ 13) (23952767405 / 10 ^ 13)) := by
    have h1 := kmF_continuousOn (N := N) (gA := 1 / 8000) (gI := 250) (D := 50)
      (s := Set.Icc (23952767204 / 10 ^ 13) (23952767405 / 10 ^ 13)) (by linarith)
      (fun y hy => by have := hy.1; norm_num at this ⊢; linarith) (by norm_num) (by norm_num)
    exact (continuousOn_const.mul continuousOn_id).add (continuousOn_const.mul h1)
  have hlo : 10 * (23952767204 / 10 ^ 13 : ℝ) + 4 * kmF N ((23952767204 / 10 ^ 13 - 1 / 8000) * 250) ((23952767204 / 10 ^ 13 - 1 / 8000) * 50) ≤ 1 := by
    have w := kmW_le (N := N) (t := (23952767204 / 10 ^ 13 - 1 / 8000) * 250) (u := 853346212546202 / 10 ^ 15) (l := 76354212070042 / 10 ^ 15)
      (a := 636285100583683 / 10 ^ 15) (c := 529254905314689 / 10 ^ 15) hN (by norm_num) (by norm_num) (by norm_num) (by norm_num)
      (by norm_num) (by norm_num) (by norm_num) (by norm_num) (by norm_num) (by norm_num)
      (by norm_num [Finset.sum_range_succ, Nat.factorial])
    have r := (kmR_between (x := (23952767204 / 10 ^ 13 - 1 / 8000) * 50) (l := 0) (u := 26827038744120841 / 10 ^ 15) (by rw [abs_of_pos] <;> norm_num)
      (by norm_num [Finset.sum_range_succ, Nat.factorial]) (by norm_num [Finset.sum_range_succ, Nat.factorial])).2
    have w' := w.trans (show _ ≤ (246251637368552 / 10 ^ 15 : ℝ) by norm_num)
    have h := harmonic_le (kmW_pos N (by norm_num)) (kmR_pos (by norm_num)) w' r
    have e : (1 / (1 / (246251637368552 / 10 ^ 15) + 1 / (26827038744120841 / 10 ^ 15)) : ℝ) * 4 ≤ 1 - 10 * (23952767204 / 10 ^ 13) := by norm_num
    unfold kmF
    linarith
  have hhi : 1 ≤ 10 * (23952767405 / 10 ^ 13 : ℝ) + 4 * kmF N ((23952767405 / 10 ^ 13 - 1 / 8000) * 250) ((23952767405 / 10 ^ 13 - 1 / 8000) * 50) := by
    have w := le_kmW (N := N) (t := (23952767405 / 10 ^ 13 - 1 / 8000) * 250) (l := 853346214661640 / 10 ^ 15) (u := 76354210594185 / 10 ^ 15)
      (a := 636285088284875 / 10 ^ 15) (c := 529254911823893 / 10 ^ 15) (by norm_num) (by norm_num) (by norm_num) (by norm_num)
      (by norm_num) (by norm_num) (by norm_num) (by norm_num) (by norm_num) (by norm_num) (by norm_num)
      (by norm_num [Finset.sum_range_succ, Nat.factorial])
    have r := (kmR_between (x := (23952767405 / 10 ^ 13 - 1 / 8000) * 50) (l := 26827038968409666 / 10 ^ 15) (u := 250) (by rw [abs_of_pos] <;> norm_num)
      (by norm_num [Finset.sum_range_succ, Nat.factorial]) (by norm_num [Finset.sum_range_succ, Nat.factorial])).1
    have w' := (show (246251661396454 / 10 ^ 15 : ℝ) ≤ _ by norm_num).trans w
    have h := harmonic_le (by norm_num) (by norm_num) w' r
    have e : 1 - 10 * (23952767405 / 10 ^ 13) ≤ (1 / (1 / (246251661396454 / 10 ^ 15) + 1 / (26827038968409666 / 10 ^ 15)) : ℝ) * 4 := by norm_num
    unfold kmF
    linarith
  obtain ⟨E, ⟨h1, h2⟩, h3⟩ := intermediate_value_Icc (by norm_num) hc ⟨hlo, hhi⟩
  exact ⟨E, h1, h2, h3⟩

end Ecm
