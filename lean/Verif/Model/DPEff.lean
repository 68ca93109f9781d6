/-
  The update with the compile-time option ECMECH_USE_DPEFF (cmake/ECMechOptions.cmake:4): the first
  two history entries hold the effective plastic deformation rate and its time integral in place of
  the sum of the slip rates and its time integral.  Everything else is as in Model/Response.lean.
-/
import Verif.Model.Response
import Verif.Model.Params
import Verif.Model.Wrap
import Verif.Model.Python

namespace Ecm
open Classical

/-- ECMech_evptn.h:665-666 with ECMECH_USE_DPEFF; `pl_vecd` is the plastic rate of line 626 -/
noncomputable def Updst.dpEff {n : ℕ} (P : Updst n) (x : Vec 8) : ℝ :=
  vecdDeff (vecsVMa P.geom.P (P.gdot x))

/-- ECMech_evptn.h:1168-1195, 1223-1227 with ECMECH_USE_DPEFF (getShrateEff returns the value of
    line 666) -/
noncomputable def Step.newHistDP {n nH : ℕ} (X : Ext) (inp : Inputs) (H : Hist nH n) (hU : Vec nH)
    (P : Updst n) (r : SolveResult 8) (want : Bool) : Hist nH n :=
  let xl := Step.lastX r want
  { shrateEff := P.dpEff xl
    shrEff := H.shrEff + P.dpEff xl * inp.dt
    flowStr := Step.flowStr P xl
    nFEval := (r.nFEvals + (if want then X.evalCost else 0) : ℕ)
    e := P.eF r.x
    q := Step.flipQuat (P.cQuat r.x) P.cN
    h := hU
    gdot := P.gdot xl }

/-- ECMech_evptn.h:1097-1246 with ECMECH_USE_DPEFF -/
noncomputable def Step.runDP {n nH : ℕ} (X : Ext) (M : Material n nH) (inp : Inputs) (m : Mem nH n)
    (hU : Vec nH) (P : Updst n) : Res (Mem nH n) :=
  let m1 : Mem nH n := { m with tkelv := Step.tK M inp m }
  let u := Step.eosUpdate M inp m
  let r := Step.solve X inp P
  let want := m.mtan.isSome
  if r.converged = false then .fail "Solver failed to converge!" m1
  else
    match Step.tangent X u.bulkNew P r.x want with
    | none => .fail "error from SNLS_LUP_SolveX" m1
    | some t =>
      let sNew := Step.stressOf P (P.eF r.x) (P.cQuat r.x)
      let m2 : Mem nH n :=
        { m1 with
          stress := sNew
          hist := (Step.newHistDP X inp (Hist.ofArray m.hist) hU P r want).toArray
          mtan := t }
      match M.el.getGmod with
      | .undef w => .undef w
      | .fail s => .fail s m2
      | .ok g =>
        .ok { m2 with
              sdd := ![u.bulkNew, g]
              eInt := u.eNew + (Step.halfVMidDt inp * vecsInnerSvecDev m.stress inp.d
                + Step.halfVMidDt inp * vecsInnerSvecDev sNew inp.d) }

/-- ECMech_evptn.h:998-1246 getResponseSngl with ECMECH_USE_DPEFF -/
noncomputable def getResponseSnglDP {n nH : ℕ} (X : Ext) (M : Material n nH) (inp : Inputs)
    (m : Mem nH n) : Res (Mem nH n) :=
  match Step.setup M inp m with
  | .undef w => .undef w
  | .fail s => .fail s { m with tkelv := Step.tK M inp m }
  | .ok (hU, P) => Step.runDP X M inp m hU P

/-- ECMech_evptnWrap.h:222-264 with ECMECH_USE_DPEFF: the history description (lines 231-232 in place of 234-235) -/
noncomputable def histDescDP (kinInfo : List HistEntry) (nslip : ℕ) : List HistEntry :=
  [⟨"dplas_eff", 0, true, true⟩, ⟨"eps", 0, true, true⟩] ++ (histDesc kinInfo nslip).drop 2

/-- pyecmech/ecmech_classes.hpp:143-177 with ECMECH_USE_DPEFF: the history description of the single-point object (lines 147-148
    in place of 150-151) -/
noncomputable def devHistDescDP (kinInfo : List HistEntry) (nslip : ℕ) : List HistEntry :=
  [⟨"effective_plastic_deformation_rate", 0, true, true⟩, ⟨"effective_plastic_strain", 0, true, true⟩]
  ++ (devHistDesc kinInfo nslip).drop 2

end Ecm
