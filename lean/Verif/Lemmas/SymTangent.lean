/- Lattice symmetries for the Jacobian and the material tangent: the derivatives in turned lattice axes. -/
import Verif.Lemmas.ObjTangent
import Verif.Lemmas.SharedSym
import Verif.Lemmas.NewtonConv
import Verif.Lemmas.Stability
import Verif.Props.Symmetry

namespace Ecm
open Spec Props Matrix

variable {n nH : ℕ}

/-! ### The derivative of the exponential map -/

theorem demap_form (xi u : Vec 3) : (dquatDemapT xi).transpose.mulVec u
    = ![-(dqAux xi).halfsthh * ((dqAux xi).na * u 0 + (dqAux xi).nb * u 1 + (dqAux xi).nc * u 2),
        1 * ((dqAux xi).sthhbyth * u 0 + (Real.cos (vecNorm xi * (1/2)) * (1/2) - (dqAux xi).sthhbyth)
          * ((dqAux xi).na * u 0 + (dqAux xi).nb * u 1 + (dqAux xi).nc * u 2) * (dqAux xi).na),
        1 * ((dqAux xi).sthhbyth * u 1 + (Real.cos (vecNorm xi * (1/2)) * (1/2) - (dqAux xi).sthhbyth)
          * ((dqAux xi).na * u 0 + (dqAux xi).nb * u 1 + (dqAux xi).nc * u 2) * (dqAux xi).nb),
        1 * ((dqAux xi).sthhbyth * u 2 + (Real.cos (vecNorm xi * (1/2)) * (1/2) - (dqAux xi).sthhbyth)
          * ((dqAux xi).na * u 0 + (dqAux xi).nb * u 1 + (dqAux xi).nc * u 2) * (dqAux xi).nc)] := by
  ext i
  fin_cases i <;> simp [dquatDemapT, Matrix.mulVec, dotProduct, Fin.sum_univ_three] <;> ring

theorem demap_zero (u : Vec 3) : (dquatDemapT 0).transpose.mulVec u = ![0, 1 / 2 * u 0, 1 / 2 * u 1, 1 / 2 * u 2] := by
  have h0 : vecNorm (0 : Vec 3) = 0 := by simp [vecNorm]
  rw [demap_form]
  have ha : dqAux (0 : Vec 3) = { halfsthh := 0, sthhbyth := 1 / 2, na := 1, nb := 0, nc := 0 } := by
    unfold dqAux
    simp only [h0]
    rw [if_pos (by norm_num [thetaSmA]), if_pos (by norm_num [idpTinySqrt])]
    simp
  rw [ha, h0]
  ext i
  fin_cases i <;> simp

theorem dot3_rot {H : Mat 3 3} (h2 : H.transpose * H = 1) (u v : Vec 3) :
    (H.mulVec u) 0 * (H.mulVec v) 0 + (H.mulVec u) 1 * (H.mulVec v) 1 + (H.mulVec u) 2 * (H.mulVec v) 2
      = u 0 * v 0 + u 1 * v 1 + u 2 * v 2 := by
  have e : (H.mulVec u) ⬝ᵥ (H.mulVec v) = u ⬝ᵥ v := by
    rw [Matrix.dotProduct_mulVec, Matrix.vecMul_mulVec, h2, Matrix.vecMul_one]
  simpa [dotProduct, Fin.sum_univ_three] using e

/-- the derivative of the rotation increment follows the lattice axes -/
theorem demap_conj {h : Vec 4} (hh : qn h = 1) (xi u : Vec 3) (hx : xi = 0 ∨ idpTinySqrt < vecNorm xi) :
    (dquatDemapT ((quatToTensor h).mulVec xi)).transpose.mulVec ((quatToTensor h).mulVec u)
      = quatProd (quatProd h ((dquatDemapT xi).transpose.mulVec u)) (qconj h) := by
  have h2 := (isRot_of_unit hh).2.1
  rcases hx with rfl | hx
  · rw [Matrix.mulVec_zero, demap_zero, demap_zero, quatProd_conj hh]
  · have hpos : 0 < vecNorm xi := lt_trans (by norm_num [idpTinySqrt]) hx
    obtain ⟨c1, c2, hc1, hc2⟩ : ∃ c1 c2 : ℝ,
        dqAux xi = ⟨c1, c2, xi 0 * (1 / vecNorm xi), xi 1 * (1 / vecNorm xi), xi 2 * (1 / vecNorm xi)⟩ ∧
        dqAux ((quatToTensor h).mulVec xi) = ⟨c1, c2, ((quatToTensor h).mulVec xi) 0 * (1 / vecNorm xi),
          ((quatToTensor h).mulVec xi) 1 * (1 / vecNorm xi), ((quatToTensor h).mulVec xi) 2 * (1 / vecNorm xi)⟩ := by
      unfold dqAux
      simp only [vecNorm_rot hh]
      have hn : ¬ |vecNorm xi| < idpTinySqrt := by rw [abs_of_pos hpos]; exact not_lt.2 hx.le
      simp only [if_neg hn]
      split_ifs
      · exact ⟨_, _, rfl, rfl⟩
      · exact ⟨_, _, rfl, rfl⟩
    rw [demap_form, demap_form, hc1, hc2, vecNorm_rot hh]
    simp only
    have hd := dot3_rot h2 xi u
    have e : (quatToTensor h).mulVec xi 0 * (1 / vecNorm xi) * (quatToTensor h).mulVec u 0
        + (quatToTensor h).mulVec xi 1 * (1 / vecNorm xi) * (quatToTensor h).mulVec u 1
        + (quatToTensor h).mulVec xi 2 * (1 / vecNorm xi) * (quatToTensor h).mulVec u 2
        = xi 0 * (1 / vecNorm xi) * u 0 + xi 1 * (1 / vecNorm xi) * u 1 + xi 2 * (1 / vecNorm xi) * u 2 := by
      linear_combination (1 / vecNorm xi) * hd
    rw [e]
    generalize xi 0 * (1 / vecNorm xi) * u 0 + xi 1 * (1 / vecNorm xi) * u 1 + xi 2 * (1 / vecNorm xi) * u 2 = t
    generalize Real.cos (vecNorm xi * (1/2)) * (1/2) - c2 = k
    have hq := quatProd_conj hh (-c1 * t) 1 (c2 • u + (k * t * (1 / vecNorm xi)) • xi)
    have e3 : ∀ i, (c2 • u + (k * t * (1 / vecNorm xi)) • xi) i = c2 * u i + k * t * (xi i * (1 / vecNorm xi)) := by
      intro i; simp; ring
    have e4 : ∀ i, (quatToTensor h).mulVec (c2 • u + (k * t * (1 / vecNorm xi)) • xi) i
        = c2 * (quatToTensor h).mulVec u i + k * t * ((quatToTensor h).mulVec xi i * (1 / vecNorm xi)) := by
      intro i
      rw [Matrix.mulVec_add, Matrix.mulVec_smul, Matrix.mulVec_smul]
      simp only [Pi.add_apply, Pi.smul_apply, smul_eq_mul]; ring
    simp only [e3, e4] at hq
    exact hq.symm

theorem dqt_turn (q d k : Vec 4) : dqt (quatProd q k) (quatProd d k) = dqt q d * quatToTensor k := by
  ext i j
  fin_cases i <;> fin_cases j <;>
    simp [dqt, dQuatToTensor, quatProd, quatToTensor, Matrix.mul_apply, Fin.sum_univ_three,
      Fin.sum_univ_four] <;> ring

theorem m35_turn {h : Vec 4} (hh : qn h = 1) (a b : Vec 5) :
    (m35 (turnE h b)).mulVec (turnE h a) = (quatToTensor h).mulVec ((m35 b).mulVec a) := by
  have hr := isRot_of_unit hh
  obtain ⟨r1, r2, -⟩ := id hr
  have hA := vecdToSymm_isDev a
  have hB := vecdToSymm_isDev b
  have k1 := (C08_commutator _ _ hA.1 hB.1).1
  have k2 := (C08_commutator _ _ (isDev_conj (R := quatToTensor h) r2 hA).1 (isDev_conj (R := quatToTensor h) r2 hB).1).1
  rw [symmToVecd_vecdToSymm, symmToVecd_vecdToSymm] at k1
  rw [k1]
  refine k2.trans ?_
  set H := quatToTensor h
  have e2 : ∀ A B : T3, (H * A * H.transpose) * (H * B * H.transpose) = H * (A * B) * H.transpose := by
    intro A B
    calc _ = H * A * (H.transpose * H) * B * H.transpose := by simp only [Matrix.mul_assoc]
      _ = _ := by rw [r2, Matrix.mul_one]; simp only [Matrix.mul_assoc]
  rw [e2, e2, ← axial_conj hr, Matrix.mul_sub, Matrix.sub_mul]

namespace Updst
variable (P : Updst n) {h : Vec 4} {m s : Fin n → Vec 3}

theorem dRot_eq (x u : Vec 8) : P.dRot x u
    = dqt (P.cQuat x) (quatProd P.cN ((dquatDemapT (xiF x)).transpose.mulVec fun w => u (iR w))) := by
  ext p q
  rw [dqt_sum]
  simp only [dRot, Matrix.sum_apply, Matrix.smul_apply, Matrix.of_apply, dCmatxDxi, smul_eq_mul, dCquatDxiT]
  exact Finset.sum_congr rfl fun w _ => mul_comm _ _

theorem turn_dRot (hh : qn h = 1) (x u : Vec 8) (hx : xiF x = 0 ∨ idpTinySqrt < vecNorm (xiF x)) :
    (P.turn h).dRot (turnX h x) (turnX h u) = P.dRot x u * (quatToTensor h).transpose := by
  rw [dRot_eq, dRot_eq, P.turn_cQuat hh x hx, turn_xiF, turnX_r, demap_conj hh _ _ hx]
  show dqt _ (quatProd (quatProd P.cN (qconj h)) _) = _
  rw [quatProd_assoc, quatProd_assoc h, quatProd_qconj_cancel hh, ← quatProd_assoc, dqt_turn, quatToTensor_qconj]

/-- the derivative terms of the Jacobian with respect to the rotation increment -/
theorem dDapp_dRot (x u : Vec 8) : (dDappDxi P.dSm (xiF x) P.cN (P.cMatx x) (P.cQuat x)).mulVec (fun j => u (iR j))
    = symmToVecd ((P.dRot x u).transpose * vecdToSymm P.dSm * P.cMatx x
      + (P.cMatx x).transpose * vecdToSymm P.dSm * P.dRot x u) := by
  funext i
  rw [← latop_eq]
  have h : ∀ p q, P.dRot x u p q = ∑ w, u (iR w) * dCmatxDxi (xiF x) P.cN (P.cQuat x) p q w := by
    intro p q
    simp only [dRot, Matrix.sum_apply, Matrix.smul_apply, Matrix.of_apply, smul_eq_mul]
  simp only [h, Matrix.mulVec, dotProduct, dDappDxi]
  generalize dRotMatVecdLatop (P.cMatx x) P.dSm i = A
  generalize dCmatxDxi (xiF x) P.cN (P.cQuat x) = B
  simp only [Fin.sum_univ_three]; ring

theorem dWapp_dRot (x u : Vec 8) : (dWappDxi P.wSm (xiF x) P.cN (P.cQuat x)).mulVec (fun j => u (iR j))
    = (P.dRot x u).transpose.mulVec P.wSm := by
  funext i
  rw [← wveccp_eq]
  have h : ∀ p q, P.dRot x u p q = ∑ w, u (iR w) * dCmatxDxi (xiF x) P.cN (P.cQuat x) p q w := by
    intro p q
    simp only [dRot, Matrix.sum_apply, Matrix.smul_apply, Matrix.of_apply, smul_eq_mul]
  simp only [h, Matrix.mulVec, dotProduct, dWappDxi]
  generalize dRotMatWveccpLatop P.wSm i = A
  generalize dCmatxDxi (xiF x) P.cN (P.cQuat x) = B
  simp only [Fin.sum_univ_three]; ring

/-- the change of the slip rates from the change of the resolved stresses -/
theorem dSlip_eq (x u : Vec 8) (i : Fin n) : P.dSlip x (fun j => u (iE j)) i
    = P.dgdotDtau x i * ((P.taua u i - P.taua 0 i) / eScale) := by
  rw [P.taua_sub]
  have he : eScale ≠ 0 := by norm_num [eScale]
  have e : ∀ j, P.eF u j - P.eF 0 j = eScale * u (iE j) := by
    intro j
    simp [eF, vecsVapb, vecsVxa]
  simp only [e, dSlip, dgdotDeps, Elast.multDTDepsT]
  rw [mul_div_assoc', Finset.mul_sum, Finset.mul_sum, Finset.sum_div]
  refine Finset.sum_congr rfl fun j _ => ?_
  field_simp

section
variable (S : P.Symmetry m s (quatToTensor h))
include S

theorem turn_dSlip (hh : qn h = 1) (hv : 0 < P.detV) (hd : ∀ i τ, (P.gd (S.π i) (S.ε i * τ)).dtau = (P.gd i τ).dtau)
    (x u : Vec 8) (i : Fin n) : (P.turn h).dSlip (turnX h x) (fun j => turnX h u (iE j)) (S.π i)
      = S.ε i * P.dSlip x (fun j => u (iE j)) i := by
  rw [dSlip_eq, dSlip_eq]
  have e : (P.turn h).dgdotDtau (turnX h x) (S.π i) = P.dgdotDtau x i := by
    show (P.gd (S.π i) ((P.turn h).taua (turnX h x) (S.π i))).dtau = (P.gd i (P.taua x i)).dtau
    rw [P.turn_taua S hh hv, hd]
  have e0 : (P.turn h).taua 0 (S.π i) = S.ε i * P.taua 0 i := by
    have := P.turn_taua S hh hv 0 i
    rwa [turnX_zero] at this
  rw [e, P.turn_taua S hh hv, e0]
  ring

theorem turn_dSlipGrad (hh : qn h = 1) (hv : 0 < P.detV)
    (hd : ∀ i τ, (P.gd (S.π i) (S.ε i * τ)).dtau = (P.gd i τ).dtau) (x u : Vec 8) :
    ∑ i, ((P.turn h).dSlip (turnX h x) (fun j => turnX h u (iE j)) i) • dyad (s i) (m i)
      = quatToTensor h * (∑ i, (P.dSlip x (fun j => u (iE j)) i) • dyad (s i) (m i)) * (quatToTensor h).transpose := by
  rw [← Equiv.sum_comp S.π, Matrix.mul_sum, Matrix.sum_mul]
  refine Finset.sum_congr rfl fun i _ => ?_
  rw [P.turn_dSlip S hh hv hd, Matrix.mul_smul, Matrix.smul_mul, S.map i, smul_smul, mul_comm]

/-- the Jacobian in turned lattice axes -/
theorem turn_jacU (hh : qn h = 1) (hv : 0 < P.detV) (hdt : 0 < P.dt)
    (hd : ∀ i τ, (P.gd (S.π i) (S.ε i * τ)).dtau = (P.gd i τ).dtau) (x u : Vec 8)
    (hx : xiF x = 0 ∨ idpTinySqrt < vecNorm (xiF x)) :
    ((P.turn h).jacU (turnX h x)).mulVec (turnX h u) = turnX h ((P.jacU x).mulVec u) := by
  have hr := isRot_of_unit hh
  obtain ⟨r1, r2, -⟩ := id hr
  have hg : (P.turn h).geom = slipPQ m s := S.geom
  have hlin : ∀ (a : ℝ) (v w z : Vec 5), turnE h (v + a • w - z) = turnE h v + a • turnE h w - turnE h z := by
    intro a v w z
    simp only [turnE_eq hh, Matrix.mulVec_add, Matrix.mulVec_sub, Matrix.mulVec_smul]
  have hup : ∀ (Q : Updst n) (y v : Vec 8), (fun i => (Q.jacU y).mulVec v (iE i))
      = vecsVMa Q.geom.P (Q.dSlip y fun j => v (iE j)) + (Q.aVri * Q.dtRi) • (fun i => v (iE i))
        - (dDappDxi Q.dSm (xiF y) Q.cN (Q.cMatx y) (Q.cQuat y)).mulVec (fun j => v (iR j)) := by
    intro Q y v
    funext i
    exact Q.jacU_upper y v i
  have hlo : ∀ (Q : Updst n), 0 < Q.dt → ∀ (y v : Vec 8), (fun i => (Q.jacU y).mulVec v (iR i))
      = Q.dt • vecsVMa Q.geom.Q (Q.dSlip y fun j => v (iE j)) - Q.eeFac • (m35 Q.eN).mulVec (fun j => v (iE j))
        - Q.dt • (dWappDxi Q.wSm (xiF y) Q.cN (Q.cQuat y)).mulVec (fun j => v (iR j)) + fun i => v (iR i) := by
    intro Q hQ y v
    funext i
    exact Q.jacU_lower hQ y v i
  rw [← block8_eta (((P.turn h).jacU (turnX h x)).mulVec (turnX h u))]
  show _ = block8 (turnE h fun i => (P.jacU x).mulVec u (iE i)) ((quatToTensor h).mulVec fun i => (P.jacU x).mulVec u (iR i))
  rw [hup, hup, hlo _ hdt, hlo (P.turn h) hdt]
  congr 1
  · rw [hlin, hg, S.geom, C18_plastic_rate, C18_plastic_rate, P.turn_dSlipGrad S hh hv hd, sym_conj, turnX_e,
      dDapp_dRot, dDapp_dRot, P.turn_dRot hh x u hx, P.turn_cMatx hh x hx]
    congr 1
    · congr 1
      rw [turnE_eq hh]
      exact symmToVecd_conj r1 r2 (sym_isSymm _)
    · rw [turnE_eq hh, ← symmToVecd_conj r1 r2]
      · congr 1
        show (P.dRot x u * (quatToTensor h).transpose).transpose * vecdToSymm P.dSm * _ + _ * vecdToSymm P.dSm * _ = _
        simp only [Matrix.transpose_mul, Matrix.transpose_transpose, Matrix.mul_add, Matrix.add_mul, Matrix.mul_assoc]
      · have hD := (vecdToSymm_isDev P.dSm).1
        unfold Matrix.IsSymm
        simp only [Matrix.transpose_add, Matrix.transpose_mul, Matrix.transpose_transpose, hD.eq, Matrix.mul_assoc]
        rw [add_comm]
  · have e1 : vecsVMa (P.turn h).geom.Q ((P.turn h).dSlip (turnX h x) fun j => turnX h u (iE j))
        = (quatToTensor h).mulVec (vecsVMa P.geom.Q (P.dSlip x fun j => u (iE j))) := by
      rw [hg, S.geom, C18_plastic_spin, C18_plastic_spin, P.turn_dSlipGrad S hh hv hd, axial_conj hr]
    have e2 : (m35 (P.turn h).eN).mulVec (fun j => turnX h u (iE j))
        = (quatToTensor h).mulVec ((m35 P.eN).mulVec fun j => u (iE j)) := by
      rw [turnX_e]
      exact m35_turn hh _ _
    have e3 : (dWappDxi (P.turn h).wSm (xiF (turnX h x)) (P.turn h).cN ((P.turn h).cQuat (turnX h x))).mulVec
        (fun j => turnX h u (iR j)) = (quatToTensor h).mulVec
          ((dWappDxi P.wSm (xiF x) P.cN (P.cQuat x)).mulVec fun j => u (iR j)) := by
      rw [dWapp_dRot, dWapp_dRot, P.turn_dRot hh x u hx, Matrix.transpose_mul, Matrix.transpose_transpose,
        ← Matrix.mulVec_mulVec]
      rfl
    rw [e1, e2, e3, turnX_r, Matrix.mulVec_add, Matrix.mulVec_sub, Matrix.mulVec_sub, Matrix.mulVec_smul,
      Matrix.mulVec_smul, Matrix.mulVec_smul]
    rfl

/-- the Jacobian in turned lattice axes, as matrices -/
theorem turn_jacU_mul (hh : qn h = 1) (hv : 0 < P.detV) (hdt : 0 < P.dt)
    (hd : ∀ i τ, (P.gd (S.π i) (S.ε i * τ)).dtau = (P.gd i τ).dtau) (x : Vec 8)
    (hx : xiF x = 0 ∨ idpTinySqrt < vecNorm (xiF x)) :
    (P.turn h).jacU (turnX h x) * turnM h = turnM h * P.jacU x := by
  apply mat_ext_mulVec
  intro u
  rw [← Matrix.mulVec_mulVec, ← Matrix.mulVec_mulVec, turnM_mulVec hh, turnM_mulVec hh]
  exact P.turn_jacU S hh hv hdt hd x u hx

/-- the lattice stress components in turned axes -/
theorem turn_elastNEtoC (hh : qn h = 1) (hv : 0 < P.detV) (e : Vec 5) :
    (fun k : Fin 5 => P.elastNEtoC (turnE h e) k.castSucc) = turnE h (fun k : Fin 5 => P.elastNEtoC e k.castSucc) ∧
    P.elastNEtoC (turnE h e) 5 = P.elastNEtoC e 5 := by
  obtain ⟨r1, r2, -⟩ := isRot_of_unit hh
  have hL := latticeStress_symm P.el P.detV P.pEos P.eVref _ (elasticStrain_symm P.detV e)
  rw [elastNEtoC_eq P hv, elastNEtoC_eq P hv, elasticStrain_turn hh, S.elast _ (elasticStrain_symm _ _)]
  generalize latticeStress P.el P.detV P.pEos P.eVref (elasticStrain P.detV e) = L at *
  simp only [symmToVecds_castSucc]
  refine ⟨?_, ?_⟩
  · rw [turnE_eq hh]
    exact symmToVecd_conj r1 r2 hL
  · have h5 : ∀ A : T3, symmToVecds A 5 = sqr3i * A.trace := by
      intro A
      simp only [symmToVecds, traceToVecdsS, trace3, Matrix.trace_fin_three, Matrix.cons_val]
    rw [h5, h5, trace_conj r2]

omit S in
/-- stress components are affine in the elastic strain -/
theorem elastNEtoC_sub (u : Vec 5) :
    (∀ k : Fin 5, P.elastNEtoC u k.castSucc - P.elastNEtoC 0 k.castSucc = P.detVRi * P.aVri * P.el.kDiag k * u k) ∧
    P.elastNEtoC u 5 - P.elastNEtoC 0 5 = P.detVRi * P.aVri * P.el.kSdax3 * u 1 := by
  unfold elastNEtoC Elast.getCauchy elastNEtoT
  refine ⟨fun k => ?_, ?_⟩
  · cases h : P.el <;> simp only [Elast.eval, vecsVxa] <;> fin_cases k <;> simp [Elast.kDiag] <;> ring
  · cases h : P.el <;> simp only [Elast.eval, vecsVxa] <;> simp [Elast.kSdax3] <;> ring

/-- the elastic part of the stress increment in turned axes -/
theorem turn_elastInc (hh : qn h = 1) (hv : 0 < P.detV) (u : Vec 5) :
    (fun p => P.detVRi * P.aVri * P.el.kDiag p * turnE h u p) = turnE h (fun p => P.detVRi * P.aVri * P.el.kDiag p * u p) ∧
    P.detVRi * P.aVri * P.el.kSdax3 * turnE h u 1 = P.detVRi * P.aVri * P.el.kSdax3 * u 1 := by
  have z : turnE h 0 = 0 := turnE_zero hh
  obtain ⟨a1, a2⟩ := P.turn_elastNEtoC S hh hv u
  obtain ⟨b1, b2⟩ := P.turn_elastNEtoC S hh hv 0
  rw [z] at b1 b2
  refine ⟨?_, ?_⟩
  · have e : ∀ v : Vec 5, (fun p => P.detVRi * P.aVri * P.el.kDiag p * v p)
        = (fun k : Fin 5 => P.elastNEtoC v k.castSucc) - fun k : Fin 5 => P.elastNEtoC 0 k.castSucc := by
      intro v
      funext k
      exact ((P.elastNEtoC_sub v).1 k).symm
    rw [e, e, a1, turnE_eq hh, turnE_eq hh, Matrix.mulVec_sub]
    congr 1
    rw [← turnE_eq hh]
    exact b1
  · rw [← (P.elastNEtoC_sub (turnE h u)).2, ← (P.elastNEtoC_sub u).2, a2]

/-- the change of the sample stress does not depend on the choice of lattice axes -/
theorem turn_dStress (hh : qn h = 1) (hcn : qn P.cN = 1) (hv : 0 < P.detV) (x u : Vec 8)
    (hx : xiF x = 0 ∨ idpTinySqrt < vecNorm (xiF x)) :
    (P.turn h).dStress (turnX h x) (turnX h u) = P.dStress x u := by
  obtain ⟨r1, r2, -⟩ := isRot_of_unit hh
  rw [dStress_eq _ (P.turn_cN hh hcn), dStress_eq _ hcn, P.turn_cMatx hh x hx, P.turn_dRot hh x u hx, P.turn_eF hh]
  have e1 : (fun k : Fin 5 => (P.turn h).elastNEtoC (turnE h (P.eF x)) k.castSucc)
      = turnE h (fun k : Fin 5 => P.elastNEtoC (P.eF x) k.castSucc) := (P.turn_elastNEtoC S hh hv _).1
  have e2 : (fun p => (P.turn h).detVRi * (P.turn h).aVri * (P.turn h).el.kDiag p * turnX h u (iE p))
      = turnE h (fun p => P.detVRi * P.aVri * P.el.kDiag p * u (iE p)) := by
    have := (P.turn_elastInc S hh hv fun p => u (iE p)).1
    rw [← turnX_e] at this
    exact this
  rw [e1, e2, vecdToSymm_turnE hh, vecdToSymm_turnE hh]
  generalize vecdToSymm (fun k : Fin 5 => P.elastNEtoC (P.eF x) k.castSucc) = A
  generalize vecdToSymm (fun p => P.detVRi * P.aVri * P.el.kDiag p * u (iE p)) = B
  generalize P.cMatx x = C
  generalize P.dRot x u = D
  set H := quatToTensor h
  have e : ∀ F G T : T3, F * H.transpose * (H * T * H.transpose) * (G * H.transpose).transpose = F * T * G.transpose := by
    intro F G T
    rw [Matrix.transpose_mul, Matrix.transpose_transpose]
    calc _ = F * (H.transpose * H) * T * (H.transpose * H) * G.transpose := by simp only [Matrix.mul_assoc]
      _ = _ := by rw [r2, Matrix.mul_one, Matrix.mul_one]
  rw [e, e, e]

omit S in
/-- the right-hand sides in turned lattice axes -/
theorem turn_rhs (hh : qn h = 1) (hcn : qn P.cN = 1) (x : Vec 8)
    (hx : xiF x = 0 ∨ idpTinySqrt < vecNorm (xiF x)) (j : Fin 5) :
    (P.turn h).pfracRhsT (turnX h x) j = turnX h (P.pfracRhsT x j) := by
  obtain ⟨c1, c2, -⟩ := isRot_of_unit (P.qn_cQuat hcn x)
  obtain ⟨r1, r2, -⟩ := isRot_of_unit hh
  have e : (P.turn h).qr5x5 (turnX h x) = P.qr5x5 x * (getRotMatVecd (quatToTensor h)).transpose := by
    unfold qr5x5
    rw [P.turn_cMatx hh x hx, ← getRotMatVecd_transpose]
    exact getRotMatVecd_mul c1 c2 (by rw [Matrix.transpose_transpose]; exact r2)
      (by rw [Matrix.transpose_transpose]; exact r1)
  have hb : ∀ (Q : Updst n) (y : Vec 8), Q.pfracRhsT y j = block8 (Q.qr5x5 y j) 0 := by
    intro Q y
    funext i
    unfold pfracRhsT block8
    split_ifs <;> rfl
  rw [hb, hb, turnX_block, Matrix.mulVec_zero, e, turnE_eq hh]
  congr 1
  funext i
  rw [Matrix.mul_apply]
  exact Finset.sum_congr rfl fun l _ => mul_comm _ _

/-- the solutions of the linear systems in turned lattice axes -/
theorem turn_solutions (hh : qn h = 1) (hcn : qn P.cN = 1) (hv : 0 < P.detV) (hdt : 0 < P.dt)
    (hd : ∀ i τ, (P.gd (S.π i) (S.ε i * τ)).dtau = (P.gd i τ).dtau) (x : Vec 8)
    (hx : xiF x = 0 ∨ idpTinySqrt < vecNorm (xiF x)) (hdet : ((P.turn h).jacU (turnX h x)).det ≠ 0) {Y Y' : Mat 5 8}
    (hY : ∀ j i, ∑ k, P.jacU x i k * Y j k = P.pfracRhsT x j i)
    (hY' : ∀ j i, ∑ k, (P.turn h).jacU (turnX h x) i k * Y' j k = (P.turn h).pfracRhsT (turnX h x) j i) (j : Fin 5) :
    Y' j = turnX h (Y j) := by
  have h1 : (P.jacU x).mulVec (Y j) = P.pfracRhsT x j := funext fun i => hY j i
  have h2 : ((P.turn h).jacU (turnX h x)).mulVec (Y' j) = (P.turn h).pfracRhsT (turnX h x) j := funext fun i => hY' j i
  have key : ((P.turn h).jacU (turnX h x)).mulVec (Y' j - turnX h (Y j)) = 0 := by
    rw [Matrix.mulVec_sub, h2, P.turn_jacU S hh hv hdt hd x _ hx, h1, P.turn_rhs hh hcn x hx, sub_self]
  exact sub_eq_zero.1 (Matrix.eq_zero_of_mulVec_eq_zero hdet key)

end

end Updst

theorem turnM_det {h : Vec 4} (hh : qn h = 1) : (turnM h).det ≠ 0 := by
  intro h0
  obtain ⟨v, hv, h1⟩ := Matrix.exists_mulVec_eq_zero_iff.2 h0
  rw [turnM_mulVec hh] at h1
  apply hv
  obtain ⟨r1, r2, -⟩ := isRot_of_unit hh
  unfold turnX at h1
  rw [block8_eq_zero, turnE_eq hh] at h1
  have a := congrArg (getRotMatVecd (quatToTensor h)).transpose.mulVec h1.1
  have b := congrArg (quatToTensor h).transpose.mulVec h1.2
  rw [Matrix.mulVec_mulVec, (getRotMatVecd_orth r1 r2).2, Matrix.one_mulVec, Matrix.mulVec_zero] at a
  rw [Matrix.mulVec_mulVec, r2, Matrix.one_mulVec, Matrix.mulVec_zero] at b
  rw [← block8_eta v, a, b, block8_eq_zero]
  exact ⟨rfl, rfl⟩

end Ecm
