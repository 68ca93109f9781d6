/- Lemmas on the residual, Jacobian and tangent of the nonlinear system. -/
import Verif.Model.Problem
import Verif.Lemmas.Emap

namespace Ecm
open Spec

/-! ### Blocks -/

theorem forall_fin8 {p : Fin 8 → Prop} (he : ∀ i, p (iE i)) (hr : ∀ i, p (iR i)) (k : Fin 8) :
    p k := by
  rcases lt_or_ge k.val 5 with h | h
  · exact he ⟨k.val, h⟩
  · have e : k = iR ⟨k.val - 5, by omega⟩ := by ext; simp [iR]; omega
    rw [e]; exact hr _

theorem sum_fin8 (f : Fin 8 → ℝ) : ∑ k, f k = ∑ i, f (iE i) + ∑ i, f (iR i) :=
  Fin.sum_univ_add (a := 5) (b := 3) f

theorem symmToVecd_add (A B : Mat 3 3) : symmToVecd (A + B) = symmToVecd A + symmToVecd B := by
  ext i
  fin_cases i <;> simp [symmToVecd] <;> ring

@[simp] theorem block8_iE (a : Vec 5) (b : Vec 3) (i : Fin 5) : block8 a b (iE i) = a i := by
  simp [block8, iE]
@[simp] theorem block8_iR (a : Vec 5) (b : Vec 3) (i : Fin 3) : block8 a b (iR i) = b i := by
  simp [block8, iR]
@[simp] theorem block88_EE (ee : Mat 5 5) (er : Mat 5 3) (re : Mat 3 5) (rr : Mat 3 3) (i j : Fin 5) :
    block88 ee er re rr (iE i) (iE j) = ee i j := by
  simp [block88, block8, iE]
@[simp] theorem block88_ER (ee : Mat 5 5) (er : Mat 5 3) (re : Mat 3 5) (rr : Mat 3 3) (i : Fin 5)
    (j : Fin 3) : block88 ee er re rr (iE i) (iR j) = er i j := by
  simp [block88, block8, iE, iR]
@[simp] theorem block88_RE (ee : Mat 5 5) (er : Mat 5 3) (re : Mat 3 5) (rr : Mat 3 3) (i : Fin 3)
    (j : Fin 5) : block88 ee er re rr (iR i) (iE j) = re i j := by
  simp [block88, block8, iE, iR]
@[simp] theorem block88_RR (ee : Mat 5 5) (er : Mat 5 3) (re : Mat 3 5) (rr : Mat 3 3) (i j : Fin 3) :
    block88 ee er re rr (iR i) (iR j) = rr i j := by
  simp [block88, block8, iR]

/-- the scale of an unknown (e_scale or r_scale) -/
noncomputable def xScale (k : Fin 8) : ℝ := if k.val < 5 then eScale else rScale

@[simp] theorem xScale_iE (i : Fin 5) : xScale (iE i) = eScale := by simp [xScale, iE]
@[simp] theorem xScale_iR (i : Fin 3) : xScale (iR i) = rScale := by simp [xScale, iR]

theorem Elast.eval_affine (el : Elast) (a : Vec 5) (t p ev : ℝ) :
    (∀ i : Fin 5, el.eval ![a 0, a 1, a 2, a 3, a 4, t] p ev i.castSucc
      = el.kDiag i * a i + el.eval ![0, 0, 0, 0, 0, t] p ev i.castSucc) ∧
    el.eval ![a 0, a 1, a 2, a 3, a 4, t] p ev 5
      = el.kSdax3 * a 1 + el.eval ![0, 0, 0, 0, 0, t] p ev 5 := by
  cases el with
  | cubic c11 c12 c44 =>
    refine ⟨fun i => ?_, ?_⟩
    · fin_cases i <;> simp [Elast.eval]
    · simp [Elast.eval, Elast.kSdax3]
  | hexag c11 c12 c13 c33 c44 g =>
    refine ⟨fun i => ?_, ?_⟩
    · fin_cases i <;> simp [Elast.eval]
      ring
    · simp [Elast.eval]
      ring

variable {E : Type*} [NormedAddCommGroup E] [NormedSpace ℝ E]

/-- lattice-frame components of a varying deformation rate in a varying orientation -/
theorem rotIncr_FD_var {d : E → Vec 5} {d' : E → Vec 5} {cn : Vec 4} (hcn : qn cn = 1)
    {v : E → Vec 3} {x : E} {v' : E → Vec 3} (hd : VFD d x d') (hv : VFD v x v')
    (h0 : thetaSmA ≤ vecNorm (v x)) :
    VFD (fun y => vecsVMTa (getRotMatVecd (quatToTensor (getCQuat (emapToQuat (v y)) cn))) (d y)) x
      (fun h => (dDappDxi (d x) (v x) cn (quatToTensor (getCQuat (emapToQuat (v x)) cn))
        (getCQuat (emapToQuat (v x)) cn)).mulVec (v' h)
        + vecsVMTa (getRotMatVecd (quatToTensor (getCQuat (emapToQuat (v x)) cn))) (d' h)) := by
  have hC := mfd_cMatx (cn := cn) hv h0
  intro i
  have h1 := VFD.symmToVecd (MFD.conjT hC (MFD.vecdToSymm hd)) i
  refine (h1.congr_fun fun y => by
    beta_reduce; rw [vecsVMTa_getRotMatVecd (qn_getCQuat hcn (v y))]).congr
    fun h => ?_
  beta_reduce
  rw [symmToVecd_add, ← vecsVMTa_getRotMatVecd (qn_getCQuat hcn (v x)), Pi.add_apply, ← latop_eq,
    Pi.add_apply]
  simp only [dDappDxi, dCdir, Matrix.of_apply, Matrix.mulVec, dotProduct, Fin.sum_univ_three]
  ring

/-- sample-frame components of a varying lattice tensor in a varying orientation -/
theorem rotStress_FD {s : E → Vec 5} {s' : E → Vec 5} {cn : Vec 4} (hcn : qn cn = 1)
    {v : E → Vec 3} {x : E} {v' : E → Vec 3} (hs : VFD s x s') (hv : VFD v x v')
    (h0 : thetaSmA ≤ vecNorm (v x)) :
    VFD (fun y => vecsVMa (getRotMatVecd (quatToTensor (getCQuat (emapToQuat (v y)) cn))) (s y)) x
      (fun h i => ∑ p, ∑ q, dRotMatVecdSmop (quatToTensor (getCQuat (emapToQuat (v x)) cn)) (s x) i p q
          * dCdir (v x) cn (getCQuat (emapToQuat (v x)) cn) (v' h) p q
        + vecsVMa (getRotMatVecd (quatToTensor (getCQuat (emapToQuat (v x)) cn))) (s' h) i) := by
  have hC := mfd_cMatx (cn := cn) hv h0
  have hm : ∀ (y : E) (u : Vec 5),
      vecsVMa (getRotMatVecd (quatToTensor (getCQuat (emapToQuat (v y)) cn))) u
        = symmToVecd (quatToTensor (getCQuat (emapToQuat (v y)) cn) * vecdToSymm u
          * (quatToTensor (getCQuat (emapToQuat (v y)) cn)).transpose) := fun y u => by
    obtain ⟨r1, r2, -⟩ := isRot_of_unit (qn_getCQuat hcn (v y))
    rw [← getRotMatVecd_mulVec' r1 r2]; rfl
  intro i
  have h1 := VFD.symmToVecd (MFD.conj hC (MFD.vecdToSymm hs)) i
  refine (h1.congr_fun fun y => by beta_reduce; rw [hm]).congr fun h => ?_
  beta_reduce
  rw [symmToVecd_add, hm x (s' h), Pi.add_apply, smop_eq]

namespace Updst
variable {n : ℕ} (P : Updst n)

/-- constant part of the Kirchhoff stress -/
noncomputable def tConst : Vec 6 := P.el.eval ![0, 0, 0, 0, 0, sqr3 * Real.log P.aV] P.pEos P.eVref

/-- the stress is affine in the elastic strain -/
theorem elastNEtoT_castSucc (e : Vec 5) (i : Fin 5) :
    P.elastNEtoT e i.castSucc = P.el.kDiag i * (P.aVri * e i) + P.tConst i.castSucc :=
  (P.el.eval_affine (vecsVxa P.aVri e) _ _ _).1 i

theorem elastNEtoT_five (e : Vec 5) :
    P.elastNEtoT e 5 = P.el.kSdax3 * (P.aVri * e 1) + P.tConst 5 :=
  (P.el.eval_affine (vecsVxa P.aVri e) _ _ _).2

variable {x : E → Vec 8} {d : E → Vec 5} {t : E} {x' : E → Vec 8} {d' : E → Vec 5}

theorem eF_FD (hx : VFD x t x') : VFD (fun y => P.eF (x y)) t (fun h i => eScale * x' h (iE i)) := by
  intro i
  exact (((hx (iE i)).const_mul eScale).add (FD.const (P.eN i))).congr fun h => by ring

theorem edot_FD (hx : VFD x t x') :
    VFD (fun y => P.edot (x y)) t (fun h i => eScale * x' h (iE i) * P.dtRi) := by
  intro i
  exact ((hx (iE i)).const_mul eScale).mul_const P.dtRi

theorem xiF_FD (hx : VFD x t x') : VFD (fun y => xiF (x y)) t (fun h i => rScale * x' h (iR i)) := by
  intro i
  exact (hx (iR i)).const_mul rScale

theorem taua_FD (hx : VFD x t x') : VFD (fun y => P.taua (x y)) t
    (fun h s => ∑ j, P.el.multDTDepsT P.geom.P P.aVri j s * (eScale * x' h (iE j))) := by
  intro s
  have h1 : ∀ j : Fin 5, FD (fun y => P.elastNEtoT (P.eF (x y)) j.castSucc * P.geom.P j s) t
      (fun h => P.el.multDTDepsT P.geom.P P.aVri j s * (eScale * x' h (iE j))) := fun j =>
    (((((P.eF_FD hx j).const_mul P.aVri).const_mul (P.el.kDiag j)).add
      (FD.const (P.tConst j.castSucc))).mul_const (P.geom.P j s)
      |>.congr_fun fun y => by rw [elastNEtoT_castSucc]).congr fun h => by
        simp only [Elast.multDTDepsT]; ring
  exact FD.sum (s := Finset.univ) fun j _ => h1 j

/-- the slip rates reported by the kinetics at the point `x` come with their derivative -/
def GdotDiff (x : Vec 8) : Prop :=
  ∀ s, HasDerivAt (fun τ => (P.gd s τ).gdot) (P.gd s (P.taua x s)).dtau (P.taua x s)

theorem gdot_FD (hx : VFD x t x') (hg : P.GdotDiff (x t)) : VFD (fun y => P.gdot (x y)) t
    (fun h s => ∑ j, P.dgdotDeps (x t) j s * (eScale * x' h (iE j))) := by
  intro s
  refine ((P.taua_FD hx s).comp (hg s)).congr fun h => ?_
  simp only [dgdotDeps, dgdotDtau, Finset.mul_sum]
  exact Finset.sum_congr rfl fun j _ => by ring

theorem slip_FD {m : ℕ} (A : Mat m n) (hx : VFD x t x') (hg : P.GdotDiff (x t)) :
    VFD (fun y => vecsVMa A (P.gdot (x y))) t
      (fun h i => ∑ j, vecsMABT A (P.dgdotDeps (x t)) i j * (eScale * x' h (iE j))) := by
  intro i
  refine (FD.sum (s := Finset.univ) fun s _ =>
    (P.gdot_FD hx hg s).const_mul (A i s)).congr fun h => ?_
  simp only [vecsMABT, Finset.mul_sum, Finset.sum_mul]
  rw [Finset.sum_comm]
  exact Finset.sum_congr rfl fun j _ => Finset.sum_congr rfl fun s _ => by ring

theorem m35_anti (a b : Vec 5) (i : Fin 3) :
    vecsVMa (m35 a) b i = -vecsVMa (m35 b) a i := by
  fin_cases i <;> simp [vecsVMa, m35, Fin.sum_univ_succ] <;> ring

theorem m35_lin (a : Vec 5) (i : Fin 3) (j : Fin 5) :
    m35 a i j = ∑ k, m35 (Pi.single k 1) i j * a k := by
  simp only [Fin.sum_univ_five]
  fin_cases i <;> fin_cases j <;> simp [m35] <;> ring

theorem m35_MFD {a a' : E → Vec 5} (ha : VFD a t a') : MFD (fun y => m35 (a y)) t
    (fun h => m35 (a' h)) := by
  intro i j
  refine ((FD.sum (s := Finset.univ) fun k _ => (ha k).const_mul (m35 (Pi.single k 1) i j)).congr_fun
    fun y => m35_lin (a y) i j).congr fun h => (m35_lin (a' h) i j).symm

theorem m35_FD {a b a' b' : E → Vec 5} (ha : VFD a t a') (hb : VFD b t b') :
    VFD (fun y => vecsVMa (m35 (a y)) (b y)) t
      (fun h i => vecsVMa (m35 (a t)) (b' h) i - vecsVMa (m35 (b t)) (a' h) i) := by
  intro i
  refine (VFD.mulVec (m35_MFD ha) hb i).congr fun h => ?_
  have e := m35_anti (a' h) (b t) i
  have e1 : ((m35 (a' h)).mulVec (b t) + (m35 (a t)).mulVec (b' h)) i
    = vecsVMa (m35 (a' h)) (b t) i + vecsVMa (m35 (a t)) (b' h) i := rfl
  beta_reduce
  rw [e1, e]; ring

theorem sum_ite_mul {m : ℕ} (i : Fin m) (c : ℝ) (f : Fin m → ℝ) :
    ∑ j, (if i = j then c else 0) * f j = c * f i := by
  simp

/-- derivative of the unscaled balance of strain rates when both the unknowns and the imposed
    deformation rate vary -/
theorem residE_FD (hcn : qn P.cN = 1) (hx : VFD x t x') (hd : VFD d t d')
    (hg : P.GdotDiff (x t)) (h0 : thetaSmA ≤ vecNorm (xiF (x t))) (hdt : d t = P.dSm) :
    VFD (fun y => ({ P with dSm := d y } : Updst n).residE (x y)) t
      (fun h i => ∑ k, P.jacU (x t) (iE i) k * (xScale k * x' h k)
        - vecsVMTa (P.qr5x5 (x t)) (d' h) i) := by
  intro i
  have h1 := (P.edot_FD hx i).const_mul P.aVri
  have h2 := P.slip_FD P.geom.P hx hg i
  have h3 := rotIncr_FD_var hcn hd (xiF_FD hx) h0 i
  refine ((h1.add h2).sub h3).congr fun h => ?_
  beta_reduce
  have e := sum_fin8 fun k => P.jacU (x t) (iE i) k * (xScale k * x' h k)
  have e1 : ∀ j, P.jacU (x t) (iE i) (iE j)
      = P.dplSymm (x t) i j + if i = j then P.aVri * P.dtRi else 0 := fun j => by unfold jacU; exact block88_EE _ _ _ _ i j
  have e2 : ∀ j, P.jacU (x t) (iE i) (iR j)
      = -dDappDxi P.dSm (xiF (x t)) P.cN (P.cMatx (x t)) (P.cQuat (x t)) i j := fun j => by unfold jacU; exact block88_ER _ _ _ _ i j
  simp only [e1, e2, xScale_iE, xScale_iR, add_mul, Finset.sum_add_distrib, sum_ite_mul, neg_mul,
    Finset.sum_neg_distrib] at e
  rw [e, Pi.add_apply, hdt]
  simp only [dplSymm, qr5x5, cMatx, cQuat, Matrix.mulVec, dotProduct]
  ring

theorem residR_FD (hcn : qn P.cN = 1) (hx : VFD x t x')
    (hg : P.GdotDiff (x t)) (h0 : thetaSmA ≤ vecNorm (xiF (x t))) :
    VFD (fun y => P.residR (x y)) t
      (fun h i => ∑ k, P.jacU (x t) (iR i) k * (xScale k * x' h k)) := by
  intro i
  have h1 := xiF_FD hx i
  have h2 := P.slip_FD P.geom.Q hx hg i
  have h3 := (rotIncr_FD P.dSm P.wSm hcn (xiF_FD hx) h0).2 i
  have h4 := (m35_FD (P.eF_FD hx) (P.edot_FD hx) i).const_mul P.eeFac
  refine (h1.sub (((h3.sub h2).add h4).const_mul P.dt)).congr fun h => ?_
  beta_reduce
  have e := sum_fin8 fun k => P.jacU (x t) (iR i) k * (xScale k * x' h k)
  have e1 : ∀ j, P.jacU (x t) (iR i) (iE j)
      = P.dt * P.dplSkew (x t) i j - P.dt * P.eeFac * (m35 (P.eF (x t)) i j * P.dtRi
        - m35 (P.edot (x t)) i j) := fun j => by unfold jacU; exact block88_RE _ _ _ _ i j
  have e2 : ∀ j, P.jacU (x t) (iR i) (iR j)
      = -P.dt * dWappDxi P.wSm (xiF (x t)) P.cN (P.cQuat (x t)) i j + if i = j then 1 else 0 :=
    fun j => by unfold jacU; exact block88_RR _ _ _ _ i j
  simp only [e1, e2, xScale_iE, xScale_iR, add_mul, Finset.sum_add_distrib, sum_ite_mul] at e
  rw [e]
  simp only [dplSkew, cQuat, Matrix.mulVec, dotProduct, vecsVMa]
  have f1 : ∀ (A B C : Vec 5) (u : Vec 5),
      ∑ j, (P.dt * A j - P.dt * P.eeFac * (B j * P.dtRi - C j)) * (eScale * u j)
      = P.dt * ∑ j, A j * (eScale * u j)
        - P.dt * P.eeFac * (∑ j, B j * (eScale * u j * P.dtRi) - ∑ j, C j * (eScale * u j)) := by
    intro A B C u
    simp only [Fin.sum_univ_five]; ring
  have f2 : ∀ (A u : Vec 3), ∑ j, -P.dt * A j * (rScale * u j) = -P.dt * ∑ j, A j * (rScale * u j) := by
    intro A u
    simp only [Fin.sum_univ_three]; ring
  rw [f1 (fun j => vecsMABT P.geom.Q (P.dgdotDeps (x t)) i j) (fun j => m35 (P.eF (x t)) i j)
    (fun j => m35 (P.edot (x t)) i j) (fun j => x' h (iE j)),
    f2 (fun j => dWappDxi P.wSm (xiF (x t)) P.cN (getCQuat (emapToQuat (xiF (x t))) P.cN) i j)
      (fun j => x' h (iR j))]
  ring

end Updst
end Ecm
