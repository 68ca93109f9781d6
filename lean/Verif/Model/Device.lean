/-
  Model of the update as compiled for a device (CUDA or HIP).  There `__ecmech_host_only__` is not
  defined (src/ecmech/ECMech_gpu_portability.h:54-58) and ECMECH_FAIL only prints
  (src/ecmech/ECMech_port.h:31), so every routine runs on after a failure.  The second run of the
  solver (ECMech_evptn.h:1115-1131) is host code.  The printed messages are collected in order.
  The variant with ECMECH_HAVE_MSLIB (ECMech_port.h:15) is not modelled.
-/
import Verif.Model.Response
import Verif.Model.Voce
import Verif.Model.KMBalD

namespace Ecm
open Classical

/-- ECMech_kinetics.h:153-187 updateH1 on the device: value, evaluations, messages -/
noncomputable def updateH1Dev (S : Solver 1) (law : Law1) (hsO dt : ℝ) : (ℝ × ℕ) × List String :=
  let prob : H1Problem := { law := law, hO := hsO, dt := dt }
  let res := S prob.problem (1 / 10 ^ 10) 100 (fun _ => 0)
  ((prob.getHn (res.x 0), res.nFEvals),
    if res.converged then [] else ["Solver failed to converge!"])

/-- kinetics with the device version of `updateH` beside the host version -/
structure DevKin (n nH : ℕ) where
  host : Kin n nH
  updateHDev : Vec nH → ℝ → Vec n → Out ((Vec nH × ℕ) × List String)

/-- ECMech_kinetics_VocePL.h:284-297 updateH on the device -/
noncomputable def Voce.updateHDev {n : ℕ} (k : Voce) (S : Solver 1) (hsO : Vec 1) (dt : ℝ)
    (gdot : Vec n) : Out ((Vec 1 × ℕ) × List String) :=
  if k.gamss0 ≤ 0 then .undef "pow(shrate_eff / gamss0) with non-positive gamss0"
  else
    let r := updateH1Dev S (k.getSdot1 (k.getEvolVals gdot)) (hsO 0) dt
    .ok (((fun _ => r.1.1), r.1.2), r.2)

/-- the Voce kinetics on the device (only `updateH` can reach ECMECH_FAIL) -/
noncomputable def Voce.devKin (k : Voce) (S : Solver 1) (n : ℕ) : DevKin n 1 where
  host := k.kin S n
  updateHDev := k.updateHDev S

/-- ECMech_kinetics_KMBalD.h:609-626 updateH on the device -/
noncomputable def KMBalD.updateHDev {nV n : ℕ} (k : KMBalD nV) (S : Solver 1) (hsO : Vec 1) (dt : ℝ)
    (gdot : Vec n) : Out ((Vec 1 × ℕ) × List String) :=
  if k.gammaO ≤ 0 then .undef "pow(gamma_o / shrate_eff) with non-positive gamma_o"
  else if max (hsO 0) k.hdnMin ≤ 0 then .undef "log of a non-positive density"
  else
    let r := updateH1Dev S (k.getSdot1 (k.getEvolVals gdot)) (Real.log (max (hsO 0) k.hdnMin)) dt
    .ok (((fun _ => Real.exp r.1.1), r.1.2), r.2)

/-- the dislocation density kinetics on the device -/
noncomputable def KMBalD.devKin {nV : ℕ} [NeZero nV] (k : KMBalD nV) (S : Solver 1) (n : ℕ) :
    DevKin n 1 where
  host := k.kin S n
  updateHDev := k.updateHDev S

/-- a material whose kinetics have a device version -/
structure DevMaterial (n nH : ℕ) where
  geom : SlipGeom n
  kin : DevKin n nH
  el : Elast
  eos : Eos

/-- the same material on the host -/
def DevMaterial.host {n nH : ℕ} (M : DevMaterial n nH) : Material n nH where
  geom := M.geom
  kin := M.kin.host
  el := M.el
  eos := M.eos

/-- the external library on the device: the linear solver leaves numbers in its right-hand side
    array whether or not it reports an error (ECMech_evptn.h:832-836) -/
structure DevExt where
  solver : Solver 8
  lup : Mat 8 8 → Mat 5 8 → Bool × Mat 5 8
  evalCost : ℕ

/-- the same library as the host model sees it -/
def DevExt.host (X : DevExt) : Ext where
  solver := X.solver
  lup := fun A B => if (X.lup A B).1 then some (X.lup A B).2 else none
  evalCost := X.evalCost

namespace Step
variable {n nH : ℕ}

/-- ECMech_evptn.h:1022-1095 on the device -/
noncomputable def setupDev (M : DevMaterial n nH) (inp : Inputs) (m : Mem nH n) :
    Out ((Vec nH × Updst n) × List String) :=
  let H := Hist.ofArray m.hist
  if H.q = 0 then .undef "normalisation of a zero quaternion"
  else if M.eos.cvav = 0 then .undef "division by zero specific heat"
  else
    (M.kin.updateHDev H.h inp.dt H.gdot).bind fun hU =>
      (Updst.make M.geom M.kin.host M.el inp.dt (inp.vr 1) (eosUpdate M.host inp m).eNew
        (eosUpdate M.host inp m).press (tK M.host inp m) hU.1.1 H.e (quatN m) (svecToVecd inp.d)
        inp.w).bind fun P => .ok ((hU.1.1, P), hU.2)

/-- ECMech_evptn.h:1137-1166 and 796-912 on the device -/
noncomputable def tangentDev (X : DevExt) (bulkNew : ℝ) (P : Updst n) (x : Vec 8) (want : Bool) :
    Option (Mat 6 6) × List String :=
  if want then
    let r := X.lup (P.jacU x) (P.pfracRhsT x)
    (some (mtanConvSdSvec true fun i j =>
        if i = 5 ∧ j = 5 then 3 * bulkNew else P.mtanOf x r.2 i j * P.dtRi),
      if r.1 then [] else ["error from SNLS_LUP_SolveX"])
  else (none, [])

/-- ECMech_evptn.h:200-208 and 386-394 getGmod on the device: the message (the value is returned in
    any case) -/
noncomputable def gmodMsg (el : Elast) : List String :=
  if el.kGmod ≤ 0 then ["effective shear modulus negative -- not initialized?"] else []

/-- ECMech_evptn.h:1097-1246 on the device -/
noncomputable def runDev (X : DevExt) (M : DevMaterial n nH) (inp : Inputs) (m : Mem nH n)
    (hU : Vec nH) (P : Updst n) : Mem nH n × List String :=
  let u := eosUpdate M.host inp m
  let r := solve X.host inp P
  let want := m.mtan.isSome
  let t := tangentDev X u.bulkNew P r.x want
  let sNew := stressOf P (P.eF r.x) (P.cQuat r.x)
  ({ eInt := u.eNew + (halfVMidDt inp * vecsInnerSvecDev m.stress inp.d
        + halfVMidDt inp * vecsInnerSvecDev sNew inp.d)
     stress := sNew
     hist := (newHist X.host inp (Hist.ofArray m.hist) hU P r want).toArray
     tkelv := tK M.host inp m
     sdd := ![u.bulkNew, M.el.kGmod]
     mtan := t.1 },
    (if r.converged then [] else ["Solver failed to converge!"]) ++ t.2 ++ gmodMsg M.el)

end Step

/-- ECMech_evptn.h:998-1246 getResponseSngl on the device: memory and printed messages -/
noncomputable def getResponseSnglDev {n nH : ℕ} (X : DevExt) (M : DevMaterial n nH) (inp : Inputs)
    (m : Mem nH n) : Out (Mem nH n × List String) :=
  (Step.setupDev M inp m).bind fun a =>
    .ok ((Step.runDev X M inp m a.1.1 a.1.2).1, a.2 ++ (Step.runDev X M inp m a.1.1 a.1.2).2)

end Ecm
