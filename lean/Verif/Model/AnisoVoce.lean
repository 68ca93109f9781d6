/-
  Model of the kinetics class with one strength per slip system, test/test_aniso_kinetics_VocePL.h.

  Real arithmetic.  The text of evalGdot, getEvolVals and getSdotN is the same as in
  src/ecmech/ECMech_kinetics_VocePL.h except for the loop over systems, so the model uses the same
  functions.  An `assert` that does not hold is `undef`.
-/
import Verif.Model.Params

namespace Ecm
open Classical

/-- parameters of KineticsAnisoVocePL<nonlinear, n> (test/test_aniso_kinetics_VocePL.h:138-157): those
    common to all systems (the member `tausi` of `base` is not used) and an initial strength for each
    system -/
structure AnisoVoce (n : ℕ) where
  base : Voce
  tausi : Vec n

/-- the parameters of one system (test/test_aniso_kinetics_VocePL.h:351-353 uses `_tausi[iSlip]`) -/
def AnisoVoce.system {n : ℕ} (k : AnisoVoce n) (i : Fin n) : Voce := { k.base with tausi := k.tausi i }

/-- test/test_aniso_kinetics_VocePL.h:23 nParams, with nH = nslip (line 21) -/
def AnisoVoce.nParams (nonlinear : Bool) (n : ℕ) : ℕ := 3 + 5 + n + (if nonlinear then 1 else 0)

/-- test/test_aniso_kinetics_VocePL.h:36-86 setParams -/
def AnisoVoce.setParams (nonlinear : Bool) (n : ℕ) (params : List ℝ) : Out (AnisoVoce n) :=
  Rd.on (do
    let mu ← rd
    let xm ← rd
    let gamW ← rd
    let h0 ← rd
    let tausi ← rdN n
    let taus0 ← rd
    let xmprime ← (if nonlinear then rd else pure 1)
    let xms ← rd
    let gamss0 ← rd
    let hdnInit ← rd
    assertUsed params (AnisoVoce.nParams nonlinear n)
    pure { base := { nonlinear := nonlinear, mu := mu, xm := xm, gamW := gamW, h0 := h0, tausi := 0
                     taus0 := taus0, xmprime := xmprime, xms := xms, gamss0 := gamss0
                     hdnInit := hdnInit }
           tausi := tausi }) params

/-- test/test_aniso_kinetics_VocePL.h:89-123 getParams: the values appended (the exponent `xmprime` is
    not among them) -/
def AnisoVoce.getParams {n : ℕ} (k : AnisoVoce n) : List ℝ :=
  [k.base.mu, k.base.xm, k.base.gamW, k.base.h0] ++ List.ofFn k.tausi
    ++ [k.base.taus0, k.base.xms, k.base.gamss0, k.base.hdnInit]

/-- test/test_aniso_kinetics_VocePL.h:126-134 getHistInfo: one entry -/
def AnisoVoce.histInfo {n : ℕ} (k : AnisoVoce n) : List HistEntry := [⟨"h", k.base.hdnInit, true, true⟩]

/-- test/test_aniso_kinetics_VocePL.h:293-311 updateH; `pow(shrate_eff / gamss0, xms)` in getEvolVals
    (313-330) needs a positive base -/
noncomputable def AnisoVoce.updateH {n : ℕ} (k : AnisoVoce n) (S : Solver n) (hsO : Vec n) (dt : ℝ)
    (gdot : Vec n) : Out (Vec n × ℕ) :=
  if k.base.gamss0 ≤ 0 then .undef "pow(shrate_eff / gamss0) with non-positive gamss0"
  else updateHN S (k.base.getSdotN k.tausi (k.base.getEvolVals gdot)) hsO dt

/-- the kinetics object: test/test_aniso_kinetics_VocePL.h:163-168 (getFixedRefRate), 170-189 (getVals:
    the strengths, their mean, with its assert), 191-211 (evalGdots: every system with its own strength,
    evalGdot 216-290), 293-311 (updateH) -/
noncomputable def AnisoVoce.kin {n : ℕ} (k : AnisoVoce n) (S : Solver n) : Kin n n where
  Vals := Vec n
  getVals := fun _ _ h =>
    if ∀ i, 0 < h i then .ok (h, (∑ i, h i) / (n : ℝ)) else .undef "assert(vals[iSlip] > zero)"
  fixedRefRate := fun _ => k.base.gamW
  evalGdot := fun g i tau => k.base.evalGdot (g i) tau
  updateH := k.updateH S

end Ecm
