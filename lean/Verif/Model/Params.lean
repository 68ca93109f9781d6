/-
  Model of the setParams / getParams / getHistInfo members of the sub-models: reading a parameter
  vector through an iterator, writing it back, and describing the history variables.

  Reading behind the end of the vector is `undef`.  A failed assert is `undef` as well (a build with
  NDEBUG would carry on).
-/
import Verif.Model.Voce
import Verif.Model.KMBalD
import Verif.Model.Response

namespace Ecm
open Classical

/-- sequencing of outcomes -/
instance : Monad Out where
  pure := Out.ok
  bind := Out.bind

/-- reading through an iterator: the state is the rest of the vector -/
abbrev Rd := StateT (List ℝ) Out

/-- `*parsIt; ++parsIt;` (e.g. ECMech_kinetics_VocePL.h:39) -/
def rd : Rd ℝ := fun l =>
  match l with
  | [] => Out.undef "read behind the end of the parameters"
  | x :: l => Out.ok (x, l)

/-- a loop reading `k` entries (e.g. ECMech_kinetics_KMBalD.h:74-76) -/
def rdN : (k : ℕ) → Rd (Vec k)
  | 0 => pure Fin.elim0
  | k + 1 => do
    let x ← rd
    let v ← rdN k
    pure (Fin.cons x v)

/-- `assert(b)` -/
def assertRd (b : Prop) [Decidable b] (msg : String) : Rd Unit := fun l =>
  if b then Out.ok ((), l) else Out.undef msg

/-- the assert at the end of each setParams that all parameters have been used
    (e.g. ECMech_kinetics_VocePL.h:77); `nParams` is the constant compared with -/
def assertUsed (params : List ℝ) (nParams : ℕ) : Rd Unit := fun l =>
  if params.length - l.length = nParams then Out.ok ((), l)
  else Out.undef "assert((parsIt - params.begin()) == nParams)"

/-- run a reader on a vector and drop the rest -/
def Rd.on {α : Type} (r : Rd α) (params : List ℝ) : Out α :=
  Out.bind (r params) fun p => Out.ok p.1

/-- one entry of the history description: name, initial value, plot flag, state flag
    (ECMech_evptnWrap.h:442-445) -/
structure HistEntry where
  name : String
  init : ℝ
  plot : Bool
  state : Bool

/-- ECMech_kinetics_VocePL.h:20 nParams, with nH = 1 -/
def Voce.nParams (nonlinear : Bool) : ℕ := 3 + 5 + 1 + (if nonlinear then 1 else 0)

/-- ECMech_kinetics_VocePL.h:32-78 setParams -/
def Voce.setParams (nonlinear : Bool) (params : List ℝ) : Out Voce :=
  Rd.on (do
    let mu ← rd
    let xm ← rd
    let gamW ← rd
    let h0 ← rd
    let tausi ← rd
    let taus0 ← rd
    let xmprime ← (if nonlinear then rd else pure 1)
    let xms ← rd
    let gamss0 ← rd
    let hdnInit ← rd
    assertUsed params (Voce.nParams nonlinear)
    pure { nonlinear := nonlinear, mu := mu, xm := xm, gamW := gamW, h0 := h0, tausi := tausi
           taus0 := taus0, xmprime := xmprime, xms := xms, gamss0 := gamss0
           hdnInit := hdnInit }) params

/-- ECMech_kinetics_VocePL.h:81-114 getParams: the values appended (the exponent `xmprime` is not
    among them) -/
def Voce.getParams (k : Voce) : List ℝ :=
  [k.mu, k.xm, k.gamW, k.h0, k.tausi, k.taus0, k.xms, k.gamss0, k.hdnInit]

/-- ECMech_kinetics_VocePL.h:117-125 getHistInfo -/
def Voce.histInfo (k : Voce) : List HistEntry := [⟨"h", k.hdnInit, true, true⟩]

/-- ECMech_kinetics_KMBalD.h:46 nParams, with nH = 1 -/
def KMBalD.nParams (nV : ℕ) : ℕ := 8 + 3 * nV + 4 + 1

/-- ECMech_kinetics_KMBalD.h:65-134 setParams, with the asserts on `p` and `q` of the special cases -/
noncomputable def KMBalD.setParams (withGA pOne qOne perSS : Bool) (nV : ℕ) (params : List ℝ) :
    Out (KMBalD nV) :=
  Rd.on (do
    let muRef ← rd
    let tKRef ← rd
    let c1 ← rdN nV
    let tauA ← rd
    let p ← rd
    let q ← rd
    let gamWo ← rd
    let gamRo ← rd
    let wrD ← rd
    let go ← rdN nV
    let s ← rdN nV
    assertRd (pOne = true → p = 1) "assert(_p == one)"
    assertRd (qOne = true → q = 1) "assert(_q == one)"
    let k1 ← rd
    let k2o ← rd
    let ninv ← rd
    let gammaO ← rd
    let hdnInit ← rd
    assertUsed params (KMBalD.nParams nV)
    pure { withGA := withGA, pOne := pOne, qOne := qOne, perSS := perSS, muRef := muRef
           tKRef := tKRef, c1 := c1, tauA := tauA, p := p, q := q, gamWo := gamWo, gamRo := gamRo
           wrD := wrD, go := go, s := s, k1 := k1, k2o := k2o, ninv := ninv, gammaO := gammaO
           hdnInit := hdnInit }) params

/-- ECMech_kinetics_KMBalD.h:137-184 getParams: the values appended -/
def KMBalD.getParams {nV : ℕ} (k : KMBalD nV) : List ℝ :=
  [k.muRef, k.tKRef] ++ List.ofFn k.c1 ++ [k.tauA, k.p, k.q, k.gamWo, k.gamRo, k.wrD]
    ++ List.ofFn k.go ++ List.ofFn k.s ++ [k.k1, k.k2o, k.ninv, k.gammaO] ++ [k.hdnInit]

/-- ECMech_kinetics_KMBalD.h:187-195 getHistInfo -/
def KMBalD.histInfo {nV : ℕ} (k : KMBalD nV) : List HistEntry := [⟨"rho_dd", k.hdnInit, true, true⟩]

/-- ECMech_evptn.h:60-78 ThermoElastNCubic::setParams -/
def Elast.setCubic (params : List ℝ) : Out Elast :=
  Rd.on (do
    let c11 ← rd
    let c12 ← rd
    let c44 ← rd
    assertUsed params 3
    pure (.cubic c11 c12 c44)) params

/-- ECMech_evptn.h:243-268 ThermoElastNHexag::setParams -/
def Elast.setHexag (params : List ℝ) : Out Elast :=
  Rd.on (do
    let c11 ← rd
    let c12 ← rd
    let c13 ← rd
    let c33 ← rd
    let c44 ← rd
    let g ← rd
    assertUsed params 6
    pure (.hexag c11 c12 c13 c33 c44 g)) params

/-- ECMech_evptn.h:81-95 and 271-289 getParams: the values appended -/
def Elast.getParams : Elast → List ℝ
  | .cubic c11 c12 c44 => [c11, c12, c44]
  | .hexag c11 c12 c13 c33 c44 g => [c11, c12, c13, c33, c44, g]

/-- ECMech_eosSimple.h:30-51 setParams; the check at the end is a failure, not an assert -/
def Eos.setParams (isothermal : Bool) (params : List ℝ) : Out Eos :=
  Out.bind ((do
    let rho0 ← rd
    let bulkMod ← rd
    let cvav ← rd
    let gamma ← rd
    let ec0 ← rd
    pure ({ isothermal := isothermal, rho0 := rho0, bulkMod := bulkMod, cvav := cvav
            gamma := gamma, ec0 := ec0 } : Eos) : Rd Eos) params) fun r =>
    if params.length - r.2.length ≠ 5 then .fail "iParam != nParams" else .ok r.1

/-- ECMech_eosSimple.h:55-74 getParams: the values appended -/
def Eos.getParams (s : Eos) : List ℝ := [s.rho0, s.bulkMod, s.cvav, s.gamma, s.ec0]

/-- ECMech_slipgeom.h:333-430 SlipGeomHCPaBRYcaY1::setParams: geometry and the stored ratio -/
noncomputable def hcpSetParams (params : List ℝ) : Out (SlipGeom 24 × ℝ) :=
  Rd.on (do
    let cOverA ← rd
    let g ← (fun l => Out.bind (slipGeomHCP cOverA) fun g => Out.ok (g, l) : Rd (SlipGeom 24))
    assertUsed params 1
    pure (g, cOverA)) params

/-- ECMech_slipgeom.h:433-445 getParams: the values appended -/
def hcpGetParams (cOverA : ℝ) : List ℝ := [cOverA]

end Ecm
