/-
  Model of EvptnUpdstProblem (src/ecmech/ECMech_evptn.h:405-988): the nonlinear system solved in
  each material update, its residual, Jacobian and material tangent.  Real arithmetic.
  ECMECH_USE_DPEFF is taken as not defined (lines 665-669).
-/
import Verif.Model.Kinetics
import Verif.Model.Elast
import Verif.Model.Eos
import Verif.Model.SlipGeom
import Mathlib.Analysis.SpecialFunctions.Pow.Real

namespace Ecm
open Classical

/-- position of an elastic strain unknown, `_i_sub_e + i` (ECMech_evptn.h:981) -/
def iE (i : Fin 5) : Fin 8 := ⟨i.val, by omega⟩
/-- position of a rotation unknown, `_i_sub_r + i` (ECMech_evptn.h:982) -/
def iR (i : Fin 3) : Fin 8 := ⟨5 + i.val, by omega⟩

/-- an 8-vector from its two blocks (the two loops over `resid`, ECMech_evptn.h:644-654) -/
def block8 (a : Vec 5) (b : Vec 3) : Vec 8 := fun i =>
  if h : i.val < 5 then a ⟨i.val, h⟩ else b ⟨i.val - 5, by omega⟩

/-- an 8x8 matrix from its four blocks (the views `jacob_ee`, `jacob_er`, `jacob_re`, `jacob_rr`,
    ECMech_evptn.h:728, 752, 765, 784) -/
def block88 (ee : Mat 5 5) (er : Mat 5 3) (re : Mat 3 5) (rr : Mat 3 3) : Mat 8 8 := fun i =>
  if h : i.val < 5 then block8 (ee ⟨i.val, h⟩) (er ⟨i.val, h⟩)
  else block8 (re ⟨i.val - 5, by omega⟩) (rr ⟨i.val - 5, by omega⟩)

/-- data members of EvptnUpdstProblem after construction (ECMech_evptn.h:960-978).  `gd` is
    `evalGdots` at the kinetics values `_kin_vals`; `adotsRef` is the local variable of the
    constructor. -/
structure Updst (n : ℕ) where
  geom : SlipGeom n
  el : Elast
  gd : Fin n → ℝ → Gd
  adotsRef : ℝ
  hdnScale : ℝ
  dt : ℝ
  detV : ℝ
  eVref : ℝ
  pEos : ℝ
  tK : ℝ
  eN : Vec 5
  cN : Vec 4
  dSm : Vec 5
  wSm : Vec 3

/-- ECMech_evptn.h:414-457, the constructor.  `undef` where the C++ would produce an infinity or a
    NaN: zero time step, or a relative volume that is not positive. -/
noncomputable def Updst.make {n nH : ℕ} (geom : SlipGeom n) (kin : Kin n nH) (el : Elast)
    (dt detV eVref pEos tK : ℝ) (h : Vec nH) (eN : Vec 5) (cN : Vec 4) (dSm : Vec 5) (wSm : Vec 3) :
    Out (Updst n) :=
  if dt = 0 then .undef "division by zero time step"
  else if detV ≤ 0 then .undef "power of a relative volume that is not positive"
  else
    (kin.getVals pEos tK h).bind fun v =>
      .ok { geom := geom, el := el, gd := kin.evalGdot v.1, adotsRef := kin.fixedRefRate v.1,
            hdnScale := v.2, dt := dt, detV := detV, eVref := eVref, pEos := pEos, tK := tK,
            eN := eN, cN := cN, dSm := dSm, wSm := wSm }

namespace Updst
variable {n : ℕ} (P : Updst n)

/-- ECMech_evptn.h:440 -/
noncomputable def dtRi : ℝ := 1 / P.dt
/-- ECMech_evptn.h:441 -/
noncomputable def detVRi : ℝ := 1 / P.detV
/-- ECMech_evptn.h:442 (`onethird` is the exact 1/3 here) -/
noncomputable def aV : ℝ := P.detV ^ (1 / 3 : ℝ)
/-- ECMech_evptn.h:443 -/
noncomputable def aVri : ℝ := 1 / P.aV
/-- ECMech_evptn.h:448-454.  When the norm is zero in the second branch (only for a reference rate
    that is not positive) the C++ takes `fmin` of an infinity, which is the other argument. -/
noncomputable def epsdotScaleInv : ℝ :=
  let eff := vecNorm P.dSm
  if eff < epsdotSclNzeff * P.adotsRef then 1 / P.adotsRef
  else if eff = 0 then 10 ^ 6 * P.dt
  else min (1 / eff) (10 ^ 6 * P.dt)
/-- ECMech_evptn.h:456 -/
noncomputable def rotincrScaleInv : ℝ := P.dtRi * P.epsdotScaleInv

/-- ECMech_evptn.h:497-499 and 568-572: end-of-step elastic strain at the trial point -/
noncomputable def eF (x : Vec 8) : Vec 5 := vecsVapb (vecsVxa eScale fun i => x (iE i)) P.eN
/-- ECMech_evptn.h:569, 573: elastic strain rate at the trial point -/
noncomputable def edot (x : Vec 8) : Vec 5 := vecsVsa (vecsVxa eScale fun i => x (iE i)) P.dtRi
/-- ECMech_evptn.h:501-502 and 575-576: rotation increment at the trial point -/
noncomputable def xiF (x : Vec 8) : Vec 3 := vecsVxa rScale fun i => x (iR i)
/-- ECMech_evptn.h:504-509 and 582-586: lattice orientation at the trial point -/
noncomputable def cQuat (x : Vec 8) : Vec 4 := getCQuat (emapToQuat (xiF x)) P.cN
/-- ECMech_evptn.h:588-589 -/
noncomputable def cMatx (x : Vec 8) : Mat 3 3 := quatToTensor (P.cQuat x)
/-- ECMech_evptn.h:591-592 -/
noncomputable def qr5x5 (x : Vec 8) : Mat 5 5 := getRotMatVecd (P.cMatx x)

/-- ECMech_evptn.h:514-533 elastNEtoT -/
noncomputable def elastNEtoT (e : Vec 5) : Vec 6 :=
  let Ee := vecsVxa P.aVri e
  P.el.eval ![Ee 0, Ee 1, Ee 2, Ee 3, Ee 4, sqr3 * Real.log P.aV] P.pEos P.eVref
/-- ECMech_evptn.h:537-543 elastNEtoC -/
noncomputable def elastNEtoC (e : Vec 5) : Vec 6 := P.el.getCauchy (P.elastNEtoT e) P.detVRi

/-- ECMech_evptn.h:620: resolved shear stresses (vecsVaTM reads the first five entries) -/
noncomputable def taua (x : Vec 8) : Vec n :=
  vecsVaTM (fun i : Fin 5 => P.elastNEtoT (P.eF x) i.castSucc) P.geom.P
/-- ECMech_evptn.h:623: `_gdot` after an evaluation at `x` -/
noncomputable def gdot (x : Vec 8) : Vec n := fun s => (P.gd s (P.taua x s)).gdot
/-- ECMech_evptn.h:623: `dgdot_dtau` -/
noncomputable def dgdotDtau (x : Vec 8) : Vec n := fun s => (P.gd s (P.taua x s)).dtau
/-- ECMech_evptn.h:640 -/
noncomputable def eeFac : ℝ := 1 / 2 * P.aVri * P.aVri
/-- ECMech_evptn.h:656-660 -/
noncomputable def disRate (x : Vec 8) : ℝ := P.detVRi * vecsyadotb (P.taua x) (P.gdot x)
/-- ECMech_evptn.h:668 -/
noncomputable def shrateEff (x : Vec 8) : ℝ := vecsssumabs (P.gdot x)

/-- ECMech_evptn.h:644-647 without the scaling factor -/
noncomputable def residE (x : Vec 8) : Vec 5 := fun i =>
  P.aVri * P.edot x i + vecsVMa P.geom.P (P.gdot x) i - vecsVMTa (P.qr5x5 x) P.dSm i
/-- ECMech_evptn.h:651-654 without the scaling factor -/
noncomputable def residR (x : Vec 8) : Vec 3 := fun i =>
  xiF x i - P.dt * (vecsVMTa (P.cMatx x) P.wSm i - vecsVMa P.geom.Q (P.gdot x) i
    + P.eeFac * vecsVMa (m35 (P.eF x)) (P.edot x) i)
/-- ECMech_evptn.h:565-654: the residual handed to the solver -/
noncomputable def resid (x : Vec 8) : Vec 8 :=
  block8 (fun i => P.epsdotScaleInv * P.residE x i) (fun i => P.rotincrScaleInv * P.residR x i)

/-- ECMech_evptn.h:690-702: `dgdot_deps(iTvec, iSlip)` -/
noncomputable def dgdotDeps (x : Vec 8) : Mat 5 n := fun i s =>
  P.dgdotDtau x s * P.el.multDTDepsT P.geom.P P.aVri i s
/-- ECMech_evptn.h:712 -/
noncomputable def dplSymm (x : Vec 8) : Mat 5 5 := vecsMABT P.geom.P (P.dgdotDeps x)
/-- ECMech_evptn.h:713 -/
noncomputable def dplSkew (x : Vec 8) : Mat 3 5 := vecsMABT P.geom.Q (P.dgdotDeps x)

/-- ECMech_evptn.h:717-794: the Jacobian before scaling -/
noncomputable def jacU (x : Vec 8) : Mat 8 8 :=
  block88
    (fun i j => P.dplSymm x i j + if i = j then P.aVri * P.dtRi else 0)
    (fun i j => -dDappDxi P.dSm (xiF x) P.cN (P.cMatx x) (P.cQuat x) i j)
    (fun i j => P.dt * P.dplSkew x i j
      - P.dt * P.eeFac * (m35 (P.eF x) i j * P.dtRi - m35 (P.edot x) i j))
    (fun i j => -P.dt * dWappDxi P.wSm (xiF x) P.cN (P.cQuat x) i j + if i = j then 1 else 0)

/-- ECMech_evptn.h:914-948: the Jacobian handed to the solver -/
noncomputable def jac (x : Vec 8) : Mat 8 8 := fun i j =>
  P.jacU x i j * ((if i.val < 5 then P.epsdotScaleInv else P.rotincrScaleInv)
    * if j.val < 5 then eScale else rScale)

/-- ECMech_evptn.h:545-952 computeRJ as the solver sees it -/
noncomputable def problem : Problem 8 := fun x => some (P.resid x, P.jac x)

end Updst

/-- the external routine SNLS_LUP_SolveX<8>(A, B, 5) (library snls, not part of this repository; its
    use is at ECMech_evptn.h:832): the right-hand sides are the rows of `B`; `none` stands for a
    non-zero error code -/
abbrev LUP := Mat 8 8 → Mat 5 8 → Option (Mat 5 8)

/-- contract of the linear solver: when it returns, the rows it returns solve the systems -/
def LUP.Sound (L : LUP) : Prop := ∀ A B X, L A B = some X → ∀ j i, ∑ k, A i k * X j k = B j i

namespace Updst
variable {n : ℕ} (P : Updst n)

/-- ECMech_evptn.h:806-822: right-hand sides `pfrac_rhs_T` -/
noncomputable def pfracRhsT (x : Vec 8) : Mat 5 8 := fun jE i =>
  if h : i.val < 5 then P.qr5x5 x jE ⟨i.val, h⟩ else 0

/-- ECMech_evptn.h:839-851: `dC_quat_dI(q, I)` -/
noncomputable def dCquatDI (x : Vec 8) (X : Mat 5 8) : Mat 4 5 := fun q I =>
  ∑ w, dCquatDxiT (xiF x) P.cN w q * X I (iR w)

/-- ECMech_evptn.h:888-900: `dsigClat_dCquat(i, r)`; the contraction over the flattened pair (p, q)
    is written as a double sum; d_rot_mat_vecd_smop reads the first five entries of the stress -/
noncomputable def dsigClatDCquat (x : Vec 8) : Mat 5 4 := fun i r =>
  ∑ p, ∑ q, dRotMatVecdSmop (P.cMatx x) (fun k : Fin 5 => P.elastNEtoC (P.eF x) k.castSucc) i p q
    * dQuatToTensor (P.cQuat x) p q r

/-- ECMech_evptn.h:853-911: the tangent `_mtan_sI` from the solutions of the linear systems.  All 36
    entries are written by qr6x6_pre_mul (line 875). -/
noncomputable def mtanOf (x : Vec 8) (X : Mat 5 8) : Mat 6 6 := fun i j =>
  qr6x6PreMul false (P.el.multCauchyDif (fun a b => X b (iE a)) P.detVRi P.aVri) (P.qr5x5 x) i j
    + if h : i.val < 5 ∧ j.val < 5 then
        vecsMAB (P.dsigClatDCquat x) (P.dCquatDI x X) ⟨i.val, h.1⟩ ⟨j.val, h.2⟩
      else 0

/-- ECMech_evptn.h:796-912: the tangent part of computeRJ; `none` for the failure of line 834 -/
noncomputable def mtan (L : LUP) (x : Vec 8) : Option (Mat 6 6) :=
  (L (P.jacU x) (P.pfracRhsT x)).map (P.mtanOf x)

end Updst
end Ecm
