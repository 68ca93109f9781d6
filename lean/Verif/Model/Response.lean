/-
  Model of getResponseSngl (src/ecmech/ECMech_evptn.h:990-1246): the update of one material point.
  Real arithmetic.  Failures are host behaviour (ECMECH_FAIL throws, ECMech_port.h); for a device see
  Model/Device.lean.
-/
import Verif.Model.Problem

namespace Ecm
open Classical

/-- number of history entries, `NumHist::numHist` (ECMech_evptn.h:33-40) -/
abbrev numHist (nH n : ℕ) : ℕ := 13 + nH + n

/-- the history of a point by name (ECMech_evptn.h:19-28, 38) -/
structure Hist (nH n : ℕ) where
  shrateEff : ℝ
  shrEff : ℝ
  flowStr : ℝ
  nFEval : ℝ
  e : Vec 5
  q : Vec 4
  h : Vec nH
  gdot : Vec n

/-- reading the history array by the offsets of ECMech_evptn.h:21-28, 38 -/
def Hist.ofArray {nH n : ℕ} (a : Vec (numHist nH n)) : Hist nH n where
  shrateEff := a ⟨0, by unfold numHist; omega⟩
  shrEff := a ⟨1, by unfold numHist; omega⟩
  flowStr := a ⟨2, by unfold numHist; omega⟩
  nFEval := a ⟨3, by unfold numHist; omega⟩
  e := fun i => a ⟨4 + i.val, by unfold numHist; omega⟩
  q := fun i => a ⟨9 + i.val, by unfold numHist; omega⟩
  h := fun i => a ⟨13 + i.val, by unfold numHist; omega⟩
  gdot := fun i => a ⟨13 + nH + i.val, by unfold numHist; omega⟩

/-- the history array with the entries of a `Hist` (same offsets) -/
def Hist.toArray {nH n : ℕ} (H : Hist nH n) : Vec (numHist nH n) := fun k =>
  if k.val = 0 then H.shrateEff
  else if k.val = 1 then H.shrEff
  else if k.val = 2 then H.flowStr
  else if k.val = 3 then H.nFEval
  else if h4 : k.val < 9 then H.e ⟨k.val - 4, by omega⟩
  else if h9 : k.val < 13 then H.q ⟨k.val - 9, by omega⟩
  else if h13 : k.val < 13 + nH then H.h ⟨k.val - 13, by omega⟩
  else H.gdot ⟨k.val - (13 + nH), by have := k.isLt; unfold numHist at this; omega⟩

/-- a material: slip geometry, kinetics, elasticity, equation of state (ECMech_evptn.h:998-1001) -/
structure Material (n nH : ℕ) where
  geom : SlipGeom n
  kin : Kin n nH
  el : Elast
  eos : Eos

/-- read-only arguments of getResponseSngl (ECMech_evptn.h:1002-1006): time step, solver tolerance,
    deformation rate (deviatoric components and volumetric entry), spin, volume ratios
    (old, new, unused, increment) -/
structure Inputs where
  dt : ℝ
  tol : ℝ
  d : Vec 7
  w : Vec 3
  vr : Vec 4

/-- read-write arguments of getResponseSngl (ECMech_evptn.h:1007-1012); `mtan = none` stands for the
    null pointer -/
structure Mem (nH n : ℕ) where
  eInt : ℝ
  stress : Vec 7
  hist : Vec (numHist nH n)
  tkelv : ℝ
  sdd : Vec 2
  mtan : Option (Mat 6 6)

/-- outcome of an update: success, failure with the memory as it is when ECMECH_FAIL is reached, or
    no usable numbers -/
inductive Res (α : Type) where
  | ok (m : α)
  | fail (msg : String) (m : α)
  | undef (why : String)

/-- the external library (snls): nonlinear solver, linear solver, and the number by which the
    evaluation counter grows in a direct call of `solver.computeRJ` (ECMech_evptn.h:1097, 832,
    1143, 1195) -/
structure Ext where
  solver : Solver 8
  lup : LUP
  evalCost : ℕ

namespace Step
variable {n nH : ℕ}

/-- ECMech_evptn.h:1059-1068: temperature from the beginning-of-step energy (the pressure `pBOS`
    computed there is not used) -/
noncomputable def tK (M : Material n nH) (inp : Inputs) (m : Mem nH n) : ℝ :=
  (M.eos.evalPT (inp.vr 0) m.eInt).2

/-- ECMech_evptn.h:1069-1077 -/
noncomputable def eosUpdate (M : Material n nH) (inp : Inputs) (m : Mem nH n) : EosUpdate :=
  M.eos.updateSimple (inp.vr 1) (inp.vr 3) m.eInt (m.stress 6)

/-- ECMech_evptn.h:1040-1047 -/
noncomputable def quatN (m : Mem nH n) : Vec 4 := vecsVNormalize (Hist.ofArray m.hist).q

/-- ECMech_evptn.h:1022-1095: everything up to the construction of the problem, returning the
    updated hardness state and the problem.  `undef` where the C++ would divide by zero: zero
    specific heat (in the temperature), zero quaternion. -/
noncomputable def setup (M : Material n nH) (inp : Inputs) (m : Mem nH n) :
    Out (Vec nH × Updst n) :=
  let H := Hist.ofArray m.hist
  if H.q = 0 then .undef "normalisation of a zero quaternion"
  else if M.eos.cvav = 0 then .undef "division by zero specific heat"
  else
    (M.kin.updateH H.h inp.dt H.gdot).bind fun hU =>
      (Updst.make M.geom M.kin M.el inp.dt (inp.vr 1) (eosUpdate M inp m).eNew
        (eosUpdate M inp m).press (tK M inp m) hU.1 H.e (quatN m) (svecToVecd inp.d) inp.w).bind
        fun P => .ok (hU.1, P)

/-- ECMech_evptn.h:1097-1112: the solve from a zero initial guess -/
noncomputable def solve (X : Ext) (inp : Inputs) (P : Updst n) : SolveResult 8 :=
  X.solver P.problem inp.tol 200 (fun _ => 0)

/-- ECMech_evptn.h:1137-1166: the tangent; outer `none` for the failure of line 834, inner `none`
    when no tangent is asked for -/
noncomputable def tangent (X : Ext) (bulkNew : ℝ) (P : Updst n) (x : Vec 8) (want : Bool) :
    Option (Option (Mat 6 6)) :=
  if want then
    (P.mtan X.lup x).map fun t =>
      some (mtanConvSdSvec true fun i j => if i = 5 ∧ j = 5 then 3 * bulkNew else t i j * P.dtRi)
  else some none

/-- the point at which `computeRJ` was evaluated last, hence the point of `_gdot`,
    `_dp_dis_rate_contrib` and `_shrate_eff_contrib` (ECMech_evptn.h:1143, 1177, 1183, 1190) -/
def lastX (r : SolveResult 8) (want : Bool) : Vec 8 := if want then r.x else r.xLast

/-- ECMech_evptn.h:1186-1193 -/
noncomputable def flowStr (P : Updst n) (xl : Vec 8) : ℝ :=
  if idpTinySqrt < vecdDeff P.dSm then P.disRate xl / vecdDeff P.dSm else P.hdnScale

/-- ECMech_evptn.h:1199-1213: the Cauchy stress in the sample frame from elastic strain and
    orientation -/
noncomputable def stressOf (P : Updst n) (e : Vec 5) (q : Vec 4) : Vec 7 :=
  let lat := P.elastNEtoC e
  let sm := vecsVMa (getRotMatVecd (quatToTensor q)) (fun i : Fin 5 => lat i.castSucc)
  vecdsToSvecP ![sm 0, sm 1, sm 2, sm 3, sm 4, lat 5]

/-- ECMech_evptn.h:1223-1227 -/
noncomputable def flipQuat (q qn : Vec 4) : Vec 4 := if vecsyadotb q qn < 0 then -q else q

/-- ECMech_evptn.h:1168-1195, 1223-1227: the history after the step; elastic strain and orientation at
    the solution as in stateFromX (ECMech_evptn.h:492-510) -/
noncomputable def newHist (X : Ext) (inp : Inputs) (H : Hist nH n) (hU : Vec nH) (P : Updst n)
    (r : SolveResult 8) (want : Bool) : Hist nH n :=
  let xl := lastX r want
  { shrateEff := P.shrateEff xl
    shrEff := H.shrEff + P.shrateEff xl * inp.dt
    flowStr := flowStr P xl
    nFEval := (r.nFEvals + (if want then X.evalCost else 0) : ℕ)
    e := P.eF r.x
    q := flipQuat (P.cQuat r.x) P.cN
    h := hU
    gdot := P.gdot xl }

/-- ECMech_evptn.h:1054 -/
noncomputable def halfVMidDt (inp : Inputs) : ℝ := 1 / 4 * (inp.vr 0 + inp.vr 1) * inp.dt

/-- ECMech_evptn.h:1097-1246: from the constructed problem to the end.  The assignments are made in
    the order of the source as far as failures can tell: nothing but the temperature is written
    before the solve and the tangent; `getGmod` (line 1230) can fail after stress, history and
    tangent have been written. -/
noncomputable def run (X : Ext) (M : Material n nH) (inp : Inputs) (m : Mem nH n) (hU : Vec nH)
    (P : Updst n) : Res (Mem nH n) :=
  let m1 : Mem nH n := { m with tkelv := tK M inp m }
  let u := eosUpdate M inp m
  let r := solve X inp P
  let want := m.mtan.isSome
  if r.converged = false then .fail "Solver failed to converge!" m1
  else
    match tangent X u.bulkNew P r.x want with
    | none => .fail "error from SNLS_LUP_SolveX" m1
    | some t =>
      let sNew := stressOf P (P.eF r.x) (P.cQuat r.x)
      let m2 : Mem nH n :=
        { m1 with
          stress := sNew
          hist := (newHist X inp (Hist.ofArray m.hist) hU P r want).toArray
          mtan := t }
      match M.el.getGmod with
      | .undef w => .undef w
      | .fail s => .fail s m2
      | .ok g =>
        .ok { m2 with
              sdd := ![u.bulkNew, g]
              eInt := u.eNew + (halfVMidDt inp * vecsInnerSvecDev m.stress inp.d
                + halfVMidDt inp * vecsInnerSvecDev sNew inp.d) }

end Step

/-- ECMech_evptn.h:998-1246 getResponseSngl -/
noncomputable def getResponseSngl {n nH : ℕ} (X : Ext) (M : Material n nH) (inp : Inputs)
    (m : Mem nH n) : Res (Mem nH n) :=
  match Step.setup M inp m with
  | .undef w => .undef w
  | .fail s => .fail s { m with tkelv := Step.tK M inp m }
  | .ok (hU, P) => Step.run X M inp m hU P

end Ecm
