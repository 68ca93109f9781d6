/-
  The power law of Voce hardening and two quantities of the update with values that may be NaN
  (src/ecmech/ECMech_kinetics_VocePL.h:166-279, src/ecmech/ECMech_evptn.h:448-454, 668, 1187-1192).

  Values are those of Model/Nan.  The parameters of the material are numbers.  Simplifications: numbers are not rounded;
  infinities are not modelled, and divisions by zero are reported as `undef`.
-/
import Verif.Model.Nan
import Verif.Model.Voce
import Verif.Model.Response

namespace Ecm
open Classical

/-- rate of slip and its derivatives with respect to stress and strength (ECMech_kinetics_VocePL.h:205-208) -/
structure GdF where
  gdot : Fl
  dtau : Fl
  dg : Fl

/-- ECMech_kinetics_VocePL.h:204-279 evalGdot.  Line 250 is reached with a number as stress only. -/
noncomputable def voceGdotF (k : Voce) (gIn tau : Fl) : Out GdF :=
  if gIn = .num 0 then .undef "division by zero strength"
  else
    let gI := gIn.inv
    let tFrac := tau * gI
    let at' := tFrac.abs
    if (Fl.num k.tMin).lt at' then
      if (Fl.num k.tMax).lt at' then .ok ⟨Fl.op2 copysign (.num (gamRatioOvffx * k.gamW)) tau, .num 0, .num 0⟩
      else
        let temp := Fl.num k.gamW * (Fl.num k.xn * at'.op1 Real.log).op1 Real.exp
        let dtau := temp * .num k.xnn * gI
        .ok ⟨temp * tFrac, dtau, -dtau * tFrac⟩
    else .ok ⟨.num 0, .num 0, .num 0⟩

/-- ECMech_kinetics_VocePL.h:166-175 getVals; `asserts` tells whether the program has been compiled with assert -/
noncomputable def voceGetValsF (asserts : Bool) (h : Fl) : Out Fl :=
  if asserts = true ∧ ¬ (Fl.num 0).lt h then .undef "assert(vals[0] > zero)" else .ok h

/-- ECMech_util.h:67-74 vecsssumabs, with the rates of slip (ECMech_evptn.h:668) -/
noncomputable def sumAbsF : List Fl → Fl := List.foldl (fun s a => s + a.abs) (.num 0)

/-- C `fmin`: a NaN is left aside -/
noncomputable def fminF : Fl → Fl → Fl
  | .num a, .num b => .num (min a b)
  | .nan, y => y
  | x, .nan => x

/-- ECMech_evptn.h:448-454: the scale of the residual from the norm of the rate of deformation -/
noncomputable def scaleF (eff adotsRef dt : Fl) : Out Fl :=
  if eff.lt (.num epsdotSclNzeff * adotsRef) then
    if adotsRef = .num 0 then .undef "division by zero" else .ok adotsRef.inv
  else if eff = .num 0 then .undef "division by zero"
  else .ok (fminF eff.inv (.num (10 ^ 6) * dt))

/-- ECMech_evptn.h:1188-1192: the flow strength kept in the history -/
noncomputable def flowStrF (dEff disRate hdnScale : Fl) : Fl :=
  if (Fl.num idpTinySqrt).lt dEff then disRate * dEff.inv else hdnScale

end Ecm
