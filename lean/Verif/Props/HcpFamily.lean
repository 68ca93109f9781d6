/- Property theorems C17 for the hexagonal table in terms of Miller-Bravais indices
   (src/ecmech/ECMech_slipgeom.h:317-454, src/ecmech/ECMech_util.h:1230-1323). -/
import Verif.Lemmas.HcpFamily
import Verif.Props.SlipGeom

namespace Ecm.Props
open Ecm Spec

/-- **C17 HCP families.** For every positive c/a the 24 systems are exactly the basal {0001}<11-20> (0-2),
    prismatic {10-10}<11-20> (3-5), pyramidal {10-11}<11-20> (6-11) and pyramidal {10-11}<11-23> (12-23)
    families: each entry belongs to its family, and each member of a family is, up to sign, an entry. -/
theorem C17_hcp_families (r : ℝ) (hr : 0 < r) : ∃ m s, hcpMS r = .ok (m, s) ∧
    ∀ f : Fin 4,
      (∀ i : Fin 24, hcpStart f.castSucc ≤ i.val → i.val < hcpStart f.succ →
        HexPlane r (hcpPlanes f) (m i) ∧ HexDirection r (hcpDirs f) (s i)) ∧
      (∀ m' s', HexPlane r (hcpPlanes f) m' → HexDirection r (hcpDirs f) s' → dot m' s' = 0 →
        ∃ i : Fin 24, hcpStart f.castSucc ≤ i.val ∧ i.val < hcpStart f.succ ∧
          SameSystem m' s' (m i) (s i)) := by
  have hs3 := s3_pos
  have hK : 0 < Real.sqrt 3 / 2 * r := by positivity
  refine ⟨_, _, hcpMS_eq hr, fun f => ⟨fun i h1 h2 => ?_, ?_⟩⟩
  · obtain ⟨hf, hm, hs⟩ := hcp_member_idx f i h1 h2
    exact ⟨⟨(hcp_slip r i).1, _, hm, _, mul_pos (hcpCm_pos hr _) hK, hcp_axis hr i⟩,
      (hcp_slip r i).2.1, _, hs, _, by have := hcpCs_pos r (hcpFam i); positivity,
      funext (hcp_dirvec r i)⟩
  · rintro m' s' ⟨hm1, h, ⟨σ, ε, δ, hh⟩, t, ht, hm⟩ ⟨hs1, u, ⟨σ', ε', δ', hu'⟩, t', ht', hs⟩ h0
    have key : h 0 * u 0 + h 1 * u 1 + h 2 * u 2 + h 3 * u 3 = 0 := by
      have e : dot m' s' = t' * ∑ k, (u k : ℝ) * dot m' (hexAxis r k) := by
        rw [hs]
        simp only [dot, Fin.sum_univ_three, Fin.sum_univ_four]
        ring
      rw [h0] at e
      simp only [hm, Fin.sum_univ_four] at e
      have e2 : t * t' * ((h 0 * u 0 + h 1 * u 1 + h 2 * u 2 + h 3 * u 3 : ℤ) : ℝ) = 0 := by
        push_cast; linear_combination -e
      rcases mul_eq_zero.1 e2 with e3 | e3
      · exact absurd e3 (mul_pos ht ht').ne'
      · exact_mod_cast e3
    obtain ⟨i, ⟨l1, l2⟩, -, hH, hU⟩ := hcp_complete_idx f σ ε δ σ' ε' δ' (by
      rw [← hh, ← hu']; exact key)
    rw [← hh] at hH
    rw [← hu'] at hU
    refine ⟨i, l1, l2, ?_⟩
    obtain ⟨n1, n2, -⟩ := hcp_slip r i
    have hA := mul_pos (hcpCm_pos hr (hcpFam i)) hK
    have hB : 0 < hcpCs r (hcpFam i) / 3 := by have := hcpCs_pos r (hcpFam i); positivity
    have ax := hcp_axis hr i
    have dv := hcp_dirvec r i
    generalize hcpCm r (hcpFam i) * (Real.sqrt 3 / 2 * r) = A at hA ax
    generalize hcpCs r (hcpFam i) / 3 = B at hB dv
    have hM : m' = hcpMx r i ∨ m' = -hcpMx r i := by
      rcases hH with e | e
      · left
        refine unit_scale hA ht hm1 n1 fun j => ?_
        refine congrFun (hex_ext (m := fun j => A * m' j) (m' := fun j => t * hcpMx r i j) hr fun k => ?_) j
        have e1 : dot (fun j => A * m' j) (hexAxis r k) = A * dot m' (hexAxis r k) := by
          simp only [dot, Fin.sum_univ_three]; ring
        have e2 : dot (fun j => t * hcpMx r i j) (hexAxis r k) = t * dot (hcpMx r i) (hexAxis r k) := by
          simp only [dot, Fin.sum_univ_three]; ring
        rw [e1, e2, hm, ax, e]; ring
      · right
        refine unit_scale hA ht hm1 (y := -hcpMx r i) (by simpa [dot] using n1) fun j => ?_
        refine congrFun (hex_ext (m := fun j => A * m' j) (m' := fun j => t * (-hcpMx r i) j) hr
          fun k => ?_) j
        have e1 : dot (fun j => A * m' j) (hexAxis r k) = A * dot m' (hexAxis r k) := by
          simp only [dot, Fin.sum_univ_three]; ring
        have e2 : dot (fun j => t * (-hcpMx r i) j) (hexAxis r k)
            = -(t * dot (hcpMx r i) (hexAxis r k)) := by
          simp only [dot, Fin.sum_univ_three, Pi.neg_apply]; ring
        rw [e1, e2, hm, ax, e]; simp only [Pi.neg_apply]; push_cast; ring
    have hS : s' = hcpSx r i ∨ s' = -hcpSx r i := by
      rcases hU with e | e
      · left
        refine unit_scale hB ht' hs1 n2 fun j => ?_
        rw [dv, hs, e]; ring
      · right
        refine unit_scale hB ht' hs1 (y := -hcpSx r i) (by simpa [dot] using n2) fun j => ?_
        rw [Pi.neg_apply, dv, hs, e]
        simp only [Pi.neg_apply, Fin.sum_univ_four]; push_cast; ring
    rcases hM with rfl | rfl <;> rcases hS with rfl | rfl
    · left; rfl
    · right; funext a b; simp [dyad]
    · right; funext a b; simp [dyad]
    · left; funext a b; simp [dyad]

/-- hypotheses: a prismatic plane and a direction in it -/
example : HexPlane 1.587 (hcpPlanes 1) ![0, 1, 0] ∧ HexDirection 1.587 (hcpDirs 1) ![1, 0, 0] ∧
    dot (![0, 1, 0] : V3) ![1, 0, 0] = 0 := by
  have h3 := s3_pos
  refine ⟨⟨by simp [dot, Fin.sum_univ_three], ![0, 1, -1, 0], ?_, Real.sqrt 3 / 2, by positivity, ?_⟩,
    ⟨by simp [dot, Fin.sum_univ_three], ![2, -1, -1, 0], ?_, 1 / 3, by norm_num, ?_⟩,
    by simp [dot, Fin.sum_univ_three]⟩
  · exact ⟨Equiv.swap 0 1, 1, 1, by decide⟩
  · intro k
    fin_cases k <;> simp [dot, Fin.sum_univ_three, hexAxis]
  · exact ⟨Equiv.swap 0 2, -1, 1, by decide⟩
  · funext j
    fin_cases j <;> simp [Fin.sum_univ_four, hexAxis]
    norm_num

end Ecm.Props
