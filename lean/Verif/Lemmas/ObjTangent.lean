/- Change of observer for the material tangent. -/
import Verif.Lemmas.Objectivity
import Verif.Lemmas.Tangent
import Verif.Props.Tangent

namespace Ecm
open Spec Props Matrix

variable {n nH : ℕ}

theorem dev_isDev {E : T3} (hE : E.IsSymm) : IsDev (dev E) := by
  have h01 := hE.apply 0 1
  have h02 := hE.apply 0 2
  have h12 := hE.apply 1 2
  rw [isDev_iff]
  simp [dev, Matrix.trace_fin_three, h01, h02, h12]
  ring

theorem symmToVecd_conj {R : T3} (h1 : R * R.transpose = 1) (h2 : R.transpose * R = 1) {E : T3} (hE : E.IsSymm) :
    symmToVecd (R * E * R.transpose) = (getRotMatVecd R).mulVec (symmToVecd E) := by
  rw [← symmToVecd_dev E, getRotMatVecd_mulVec h1 h2 (dev_isDev hE), ← symmToVecd_dev (R * E * R.transpose)]
  congr 1
  have ht : (R * E * R.transpose).trace = E.trace := trace_conj h2
  unfold dev
  rw [ht, Matrix.mul_sub, Matrix.sub_mul, Matrix.mul_smul, Matrix.smul_mul, Matrix.mul_one, h1]

/-- the Voigt list that belongs to six internal components -/
theorem ofVoigt_vecds (w : Vec 6) :
    ofVoigt (svecpToSvec (vecdsToSvecP w)) = vecdToSymm (fun k => w k.castSucc) + (sqr3i * w 5) • (1 : T3) := by
  ext i j
  fin_cases i <;> fin_cases j <;>
    simp [ofVoigt, svecpToSvec, vecdsToSvecP, vecdToSymm, ofSvecP]

namespace Updst
variable (P : Updst n) {a : Vec 4}

/-- change of the lattice rotation with the unknowns -/
noncomputable def dRot (x u : Vec 8) : Mat 3 3 :=
  ∑ w, u (iR w) • Matrix.of fun p q => dCmatxDxi (xiF x) P.cN (P.cQuat x) p q w

theorem dStress_eq (hcn : qn P.cN = 1) (x u : Vec 8) :
    P.dStress x u = symmToVecd (P.cMatx x * vecdToSymm (fun p => P.detVRi * P.aVri * P.el.kDiag p * u (iE p))
        * (P.cMatx x).transpose
      + (P.dRot x u * vecdToSymm (fun k : Fin 5 => P.elastNEtoC (P.eF x) k.castSucc) * (P.cMatx x).transpose
        + P.cMatx x * vecdToSymm (fun k : Fin 5 => P.elastNEtoC (P.eF x) k.castSucc) * (P.dRot x u).transpose)) := by
  obtain ⟨r1, r2, -⟩ := isRot_of_unit (P.qn_cQuat hcn x)
  rw [symmToVecd_add]
  funext i
  rw [Pi.add_apply]
  unfold dStress
  congr 1
  · exact congrFun (getRotMatVecd_mulVec' r1 r2 _) i
  · rw [← smop_eq]
    have e : ∀ (S : Fin 3 → Fin 3 → ℝ) (Q : Fin 3 → Fin 3 → Fin 4 → ℝ) (B : Fin 3 → Fin 4 → ℝ) (u : Vec 3),
        ∑ r, (∑ p, ∑ q, S p q * Q p q r) * ∑ w, B w r * u w
          = ∑ p, ∑ q, S p q * ∑ w, u w * ∑ r, Q p q r * B w r := by
      intro S Q B u
      simp only [Fin.sum_univ_three, Fin.sum_univ_four]; ring
    have h : ∀ p q, P.dRot x u p q = ∑ w, u (iR w) * ∑ r, dQuatToTensor (P.cQuat x) p q r
        * dCquatDxiT (xiF x) P.cN w r := by
      intro p q
      simp only [dRot, Matrix.sum_apply, Matrix.smul_apply, Matrix.of_apply, dCmatxDxi, smul_eq_mul]
    simp only [h]
    exact e _ _ _ fun w => u (iR w)

theorem rot_dRot (ha : qn a = 1) (x u : Vec 8) : (P.rot a).dRot x u = quatToTensor a * P.dRot x u := by
  unfold dRot
  rw [Matrix.mul_sum]
  refine Finset.sum_congr rfl fun w _ => ?_
  rw [rot_cQuat]
  have := rot_dCmatx ha (xiF x) P.cN (P.cQuat x) w
  rw [Matrix.mul_smul, ← this]
  rfl

theorem rot_dStress (ha : qn a = 1) (hcn : qn P.cN = 1) (x u : Vec 8) :
    vecdToSymm ((P.rot a).dStress x u) = quatToTensor a * vecdToSymm (P.dStress x u) * (quatToTensor a).transpose := by
  obtain ⟨a1, a2, -⟩ := isRot_of_unit ha
  have hcn' : qn (P.rot a).cN = 1 := P.rot_unit ha hcn
  rw [dStress_eq _ hcn', dStress_eq _ hcn, rot_cMatx, rot_dRot _ ha]
  have e1 : (P.rot a).elastNEtoC ((P.rot a).eF x) = P.elastNEtoC (P.eF x) := rfl
  have e2 : (fun p => (P.rot a).detVRi * (P.rot a).aVri * (P.rot a).el.kDiag p * u (iE p))
      = fun p => P.detVRi * P.aVri * P.el.kDiag p * u (iE p) := rfl
  rw [e1, e2]
  have hS := (vecdToSymm_isDev (fun k : Fin 5 => P.elastNEtoC (P.eF x) k.castSucc)).1
  have hS' := (vecdToSymm_isDev (fun p => P.detVRi * P.aVri * P.el.kDiag p * u (iE p))).1
  generalize vecdToSymm (fun k : Fin 5 => P.elastNEtoC (P.eF x) k.castSucc) = S at *
  generalize vecdToSymm (fun p => P.detVRi * P.aVri * P.el.kDiag p * u (iE p)) = S' at *
  generalize P.cMatx x = C
  generalize P.dRot x u = H
  generalize quatToTensor a = R at *
  have hT : (C * S' * C.transpose + (H * S * C.transpose + C * S * H.transpose)).IsSymm := by
    unfold Matrix.IsSymm
    simp only [Matrix.transpose_add, Matrix.transpose_mul, Matrix.transpose_transpose, hS.eq, hS'.eq,
      Matrix.mul_assoc]
    rw [add_comm (H * _)]
  have hc : R * C * S' * (R * C).transpose + (R * H * S * (R * C).transpose + R * C * S * (R * H).transpose)
      = R * (C * S' * C.transpose + (H * S * C.transpose + C * S * H.transpose)) * R.transpose := by
    simp only [Matrix.transpose_mul, Matrix.mul_add, Matrix.add_mul, Matrix.mul_assoc]
  rw [hc, symmToVecd_conj a1 a2 hT, getRotMatVecd_mulVec' a1 a2,
    vecdToSymm_symmToVecd _ (isDev_conj a2 (vecdToSymm_isDev _))]

/-- six internal components of the stress increment of the tangent -/
theorem tangent_vecds (K : ℝ) (x : Vec 8) (Y : Mat 5 8) (E : T3) :
    (Matrix.mulVec (fun i j => if i = 5 ∧ j = 5 then 3 * K else P.mtanOf x Y i j * P.dtRi) (symmToVecds E) : Vec 6)
      = Fin.snoc (fun i => P.dtRi * P.dStress x (fun k => ∑ j, Y j k * symmToVecd E j) i)
        (P.dtRi * (P.detVRi * P.aVri * P.el.kSdax3 * ∑ j, Y j (iE 1) * symmToVecd E j) + 3 * K * (sqr3i * E.trace)) := by
  have hs : ∀ j : Fin 5, symmToVecds E j.castSucc = symmToVecd E j := by
    intro j
    fin_cases j <;> rfl
  have h5 : symmToVecds E (Fin.last 5) = sqr3i * E.trace := by
    show symmToVecds E 5 = _
    simp only [symmToVecds, traceToVecdsS, trace3, Matrix.trace_fin_three, Matrix.cons_val]
  have hj : ∀ j : Fin 5, (j.castSucc : Fin 6) ≠ 5 := by
    intro j h; have := congrArg Fin.val h; have := j.isLt; simp at *; omega
  have hl : (Fin.last 5 : Fin 6) = 5 := rfl
  funext i
  simp only [Matrix.mulVec, dotProduct]
  rw [Fin.sum_univ_castSucc, h5]
  simp only [hs, hl]
  refine Fin.lastCases ?_ (fun i => ?_) i
  · rw [Fin.snoc_last, hl, if_pos ⟨rfl, trivial⟩]
    congr 1
    rw [Finset.mul_sum, Finset.mul_sum]
    refine Finset.sum_congr rfl fun j _ => ?_
    rw [if_neg fun h => hj _ h.2, mtanOf_row5]
    ring
  · rw [Fin.snoc_castSucc, if_neg fun h => hj _ h.1, mtanOf_col5, zero_mul, zero_mul, add_zero, ← dStress_sum,
      Finset.mul_sum]
    refine Finset.sum_congr rfl fun j _ => ?_
    rw [if_neg fun h => hj _ h.1, mtanOf_dev]
    ring

/-- the stress increment of the tangent as a tensor -/
theorem tangent_tensor (K : ℝ) (x : Vec 8) (Y : Mat 5 8) (E : T3) (hE : E.IsSymm) :
    ofVoigt ((mtanConvSdSvec true fun i j => if i = 5 ∧ j = 5 then 3 * K else P.mtanOf x Y i j * P.dtRi).mulVec
      ![E 0 0, E 1 1, E 2 2, 2 * E 1 2, 2 * E 0 2, 2 * E 0 1])
      = P.dtRi • vecdToSymm (P.dStress x (fun k => ∑ j, Y j k * symmToVecd E j))
        + (sqr3i * (P.dtRi * (P.detVRi * P.aVri * P.el.kSdax3 * ∑ j, Y j (iE 1) * symmToVecd E j)
          + 3 * K * (sqr3i * E.trace))) • (1 : T3) := by
  refine (congrArg ofVoigt (conv_mulVec _ E hE)).trans ?_
  rw [ofVoigt_vecds, tangent_vecds]
  have hl : (Fin.snoc (fun i => P.dtRi * P.dStress x (fun k => ∑ j, Y j k * symmToVecd E j) i)
        (P.dtRi * (P.detVRi * P.aVri * P.el.kSdax3 * ∑ j, Y j (iE 1) * symmToVecd E j) + 3 * K * (sqr3i * E.trace))
        : Fin 6 → ℝ) 5
      = P.dtRi * (P.detVRi * P.aVri * P.el.kSdax3 * ∑ j, Y j (iE 1) * symmToVecd E j) + 3 * K * (sqr3i * E.trace) :=
    Fin.snoc_last (α := fun _ => ℝ) _ _
  rw [hl]
  congr 1
  have : (fun k : Fin 5 => (Fin.snoc (fun i => P.dtRi * P.dStress x (fun k => ∑ j, Y j k * symmToVecd E j) i)
        (P.dtRi * (P.detVRi * P.aVri * P.el.kSdax3 * ∑ j, Y j (iE 1) * symmToVecd E j) + 3 * K * (sqr3i * E.trace))
        : Fin 6 → ℝ) k.castSucc)
      = fun k => P.dtRi * P.dStress x (fun k => ∑ j, Y j k * symmToVecd E j) k :=
    funext fun k => Fin.snoc_castSucc (α := fun _ => ℝ) _ _ _
  rw [this]
  ext i j
  fin_cases i <;> fin_cases j <;> simp [vecdToSymm, vecdsToSvecP, ofSvecP] <;> ring

/-- the right-hand sides for a rotated observer -/
theorem rot_rhs (ha : qn a = 1) (hcn : qn P.cN = 1) (x : Vec 8) :
    (P.rot a).pfracRhsT x = getRotMatVecd (quatToTensor a) * P.pfracRhsT x := by
  obtain ⟨r1, r2, -⟩ := isRot_of_unit (P.qn_cQuat hcn x)
  obtain ⟨a1, a2, -⟩ := isRot_of_unit ha
  have e : (P.rot a).qr5x5 x = getRotMatVecd (quatToTensor a) * P.qr5x5 x := by
    unfold qr5x5
    rw [rot_cMatx]
    exact getRotMatVecd_mul a1 a2 r1 r2
  funext j i
  show (if h : i.val < 5 then (P.rot a).qr5x5 x j ⟨i.val, h⟩ else 0)
    = ∑ l, getRotMatVecd (quatToTensor a) j l * if h : i.val < 5 then P.qr5x5 x l ⟨i.val, h⟩ else 0
  rw [e]
  split_ifs with h
  · rfl
  · simp

/-- solutions for a rotated observer -/
theorem rot_solutions (ha : qn a = 1) (hcn : qn P.cN = 1) (x : Vec 8) (hd : (P.jacU x).det ≠ 0) {Y Y' : Mat 5 8}
    (hY : ∀ j i, ∑ k, P.jacU x i k * Y j k = P.pfracRhsT x j i)
    (hY' : ∀ j i, ∑ k, (P.rot a).jacU x i k * Y' j k = (P.rot a).pfracRhsT x j i) :
    Y' = getRotMatVecd (quatToTensor a) * Y := by
  rw [P.rot_jacU ha, P.rot_rhs ha hcn] at hY'
  funext j
  have key : (P.jacU x).mulVec (Y' j - (getRotMatVecd (quatToTensor a) * Y) j) = 0 := by
    rw [Matrix.mulVec_sub, sub_eq_zero]
    funext i
    refine (hY' j i).trans ?_
    show (getRotMatVecd (quatToTensor a) * P.pfracRhsT x) j i = ∑ k, P.jacU x i k * (getRotMatVecd (quatToTensor a) * Y) j k
    simp only [Matrix.mul_apply, Finset.mul_sum]
    rw [Finset.sum_comm]
    refine Finset.sum_congr rfl fun l _ => ?_
    rw [← hY l i, Finset.mul_sum]
    exact Finset.sum_congr rfl fun k _ => by ring
  exact sub_eq_zero.1 (Matrix.eq_zero_of_mulVec_eq_zero hd key)

end Updst
end Ecm
