/- Helper lemmas for the example driver. -/
import Verif.Model.Miniapp
import Verif.Lemmas.Response
import Verif.Lemmas.Sqrt

namespace Ecm
open Classical

theorem Raw.set_app (s : Raw) (k : ℕ) (v : ℝ) (a : ℕ) :
    s.set k v a = if a = k then some v else s a := rfl

theorem Raw.loop_off (s : Raw) (n b : ℕ) (v : ℕ → ℝ) (a : ℕ) :
    s.loop n (fun j => b + j) v a = if b ≤ a ∧ a < b + n then some (v (a - b)) else s a := by
  unfold Raw.loop
  induction n with
  | zero => simp
  | succ n ih =>
    rw [List.range_succ, List.foldl_append]
    simp only [List.foldl_cons, List.foldl_nil] at ih ⊢
    rw [Raw.set_app]
    by_cases h : a = b + n
    · subst h
      rw [if_pos rfl, if_pos (by omega)]
      congr 2; omega
    · rw [if_neg h]
      rw [ih]
      by_cases h2 : b ≤ a ∧ a < b + n
      · rw [if_pos h2, if_pos (by omega)]
      · rw [if_neg h2, if_neg (by omega)]

theorem Raw.loop_const (s : Raw) (n p : ℕ) (v : ℕ → ℝ) (a : ℕ) :
    s.loop n (fun _ => p) v a = if a = p ∧ 0 < n then some (v (n - 1)) else s a := by
  unfold Raw.loop
  induction n with
  | zero => simp
  | succ n ih =>
    rw [List.range_succ, List.foldl_append]
    simp only [List.foldl_cons, List.foldl_nil] at ih ⊢
    rw [Raw.set_app]
    by_cases h : a = p
    · simp [h]
    · rw [if_neg h]
      rw [ih]
      simp [h]

/-- what init_data leaves in slot `k` of point `i`; `old` is what was there before -/
def slotVal (ori hist : ℕ → ℝ) (nH ns i k : ℕ) (old : Option ℝ) : Option ℝ :=
  if k = 13 + nH + ns + 1 then some 0
  else if k = 13 + nH + ns then some 1
  else if k = 13 ∧ 0 < nH then some (hist (13 + (nH - 1)))
  else if 13 + nH ≤ k ∧ k < 13 + nH + ns then some (hist k)
  else if 4 ≤ k ∧ k < 9 then some (hist k)
  else if 9 ≤ k ∧ k < 13 then some (ori (i * 4 + (k - 9)))
  else if k = 0 ∨ k = 1 ∨ k = 3 then some (hist k)
  else old

theorem initPoint_spec (ori hist : ℕ → ℝ) (nH ns i : ℕ) (s : Raw) (a : ℕ) :
    initPoint ori hist nH (13 + nH) ns (13 + nH + ns + 2) i s a
      = if i * (13 + nH + ns + 2) ≤ a ∧ a < i * (13 + nH + ns + 2) + (13 + nH + ns + 2)
        then slotVal ori hist nH ns i (a - i * (13 + nH + ns + 2)) (s a) else s a := by
  simp only [initPoint]
  generalize i * (13 + nH + ns + 2) = b
  rw [Raw.loop_off, Raw.loop_const, Raw.loop_off, Raw.loop_off, Raw.loop_off]
  simp only [Raw.set]
  by_cases hw : b ≤ a ∧ a < b + (13 + nH + ns + 2)
  · rw [if_pos hw]
    obtain ⟨k, rfl⟩ := Nat.exists_eq_add_of_le hw.1
    have hk : k < 13 + nH + ns + 2 := by omega
    rw [show b + k - b = k by omega]
    unfold slotVal
    by_cases c1 : k = 13 + nH + ns + 1
    · rw [if_pos (by omega), if_pos c1]
    rw [if_neg (by omega), if_neg c1]
    by_cases c3 : k = 13 ∧ 0 < nH
    · rw [if_pos (by omega), if_neg (by omega), if_pos c3]
    rw [if_neg (by omega), if_neg c3]
    by_cases c4 : 13 + nH ≤ k ∧ k < 13 + nH + ns
    · rw [if_pos (by omega), if_neg (by omega), if_pos c4]
      congr 2; omega
    rw [if_neg (by omega), if_neg c4]
    by_cases c5 : 4 ≤ k ∧ k < 9
    · rw [if_pos (by omega), if_neg (by omega), if_pos c5]
      congr 2; omega
    rw [if_neg (by omega), if_neg c5]
    by_cases c6 : 9 ≤ k ∧ k < 13
    · rw [if_pos (by omega), if_neg (by omega), if_pos c6]
      congr 3; omega
    rw [if_neg (by omega), if_neg c6]
    by_cases c2 : k = 13 + nH + ns
    · rw [if_pos (by omega), if_pos c2]
    rw [if_neg (by omega), if_neg c2]
    by_cases d3 : k = 3
    · subst d3; simp
    rw [if_neg (by omega)]
    by_cases d1 : k = 1
    · subst d1; simp
    rw [if_neg (by omega)]
    by_cases d0 : k = 0
    · subst d0; simp
    rw [if_neg (by omega), if_neg (by omega)]
  · rw [if_neg hw]
    repeat rw [if_neg (by omega)]

theorem initData_spec (ori hist : ℕ → ℝ) (nH ns : ℕ) (s : Raw) (nq : ℕ) :
    ∀ i k, k < 13 + nH + ns + 2 →
    initData ori hist nq nH (13 + nH) ns (13 + nH + ns + 2) s (i * (13 + nH + ns + 2) + k)
      = if i < nq then slotVal ori hist nH ns i k (s (i * (13 + nH + ns + 2) + k))
        else s (i * (13 + nH + ns + 2) + k) := by
  generalize hV : 13 + nH + ns + 2 = V
  induction nq with
  | zero => intro i k _; rfl
  | succ nq ih =>
    intro i k hk
    have e : initData ori hist (nq + 1) nH (13 + nH) ns V s
        = initPoint ori hist nH (13 + nH) ns V nq (initData ori hist nq nH (13 + nH) ns V s) := by
      unfold initData
      rw [List.range_succ, List.foldl_append]
      rfl
    rw [e, ← hV, initPoint_spec, hV]
    by_cases hi : i = nq
    · subst hi
      rw [if_pos (by omega), if_pos (by omega), ih i k hk, if_neg (by omega)]
      congr 1; omega
    · rw [if_neg, ih i k hk]
      · by_cases h : i < nq
        · rw [if_pos h, if_pos (by omega)]
        · rw [if_neg h, if_neg (by omega)]
      · rintro ⟨h1, h2⟩
        rcases Nat.lt_or_gt_of_ne hi with h | h
        · have := Nat.mul_le_mul_right V (show i + 1 ≤ nq from h)
          rw [Nat.add_mul] at this
          omega
        · have := Nat.mul_le_mul_right V (show nq + 1 ≤ i from h)
          rw [Nat.add_mul] at this
          omega

/-- the first three entries of a stress put out by the library add to zero -/
theorem vecdsToSvecP_tr (v : Vec 6) : vecdsToSvecP v 0 + vecdsToSvecP v 1 + vecdsToSvecP v 2 = 0 := by
  simp [vecdsToSvecP]
  sqr_ring

theorem stress_tr {n nH : ℕ} {X : Ext} {M : Material n nH} {inp : Inputs} {m m' : Mem nH n}
    (h : getResponseSngl X M inp m = .ok m') : m'.stress 0 + m'.stress 1 + m'.stress 2 = 0 := by
  obtain ⟨W⟩ := getResponseSngl_ok h
  rw [W.hst]
  exact vecdsToSvecP_tr _

end Ecm
