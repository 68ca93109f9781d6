/-
  Model of the class template matModel (src/ecmech/ECMech_evptnWrap.h), of its base class
  (src/ecmech/ECMech_matModelBase.h) and of the creation of models by name
  (src/ecmech/ECMech_cases.h, ECMech_cases.cxx).

  Members that the constructors leave uninitialised are `none` until they are set; using one is
  `undef`.  A member function that fails leaves the object as it is at that moment (the caller may
  catch the exception).  Names of history variables are those of a build without ECMECH_USE_DPEFF.
  Execution strategy and output level are not part of the state: they select between loops with the
  same body.
-/
import Verif.Model.Batch
import Verif.Model.Params

namespace Ecm
open Classical

/-- the template arguments of matModel<SlipGeom, Kinetics, ThermoElastN, EosModel>
    (ECMech_evptnWrap.h:22) with their constants nslip, nH, nParams and their setParams;
    `setKin` also gives what getHistInfo of the kinetics would give.  The solver is the one used by
    the hardness update. -/
structure MType where
  nslip : ℕ
  nH : ℕ
  geomN : ℕ
  setGeom : List ℝ → Out (SlipGeom nslip)
  elN : ℕ
  setEl : List ℝ → Out Elast
  kinN : ℕ
  setKin : Solver 1 → List ℝ → Out (Kin nslip nH × List HistEntry)
  isothermal : Bool

/-- ECMech_evptnWrap.h:33 nParamsEOS = EosModel::nParams - 3 -/
def nParamsEOS : ℕ := 5 - 3

/-- ECMech_evptnWrap.h:34-36 nParams -/
def MType.nParams (T : MType) : ℕ := 2 + 1 + T.geomN + T.kinN + T.elN + nParamsEOS

/-- ECMech_evptnWrap.h:28, 406-408 numHist -/
def MType.numHist (T : MType) : ℕ := Ecm.numHist T.nH T.nslip

/-- the object: members of matModelBase (ECMech_matModelBase.h:23-24) and matModel
    (ECMech_evptnWrap.h:434-450) -/
structure MM (T : MType) where
  complete : Bool
  rho0 : ℝ
  cvav : ℝ
  v0 : ℝ
  e0 : ℝ
  bulkRef : ℝ
  geom : Option (SlipGeom T.nslip)
  kin : Option (Kin T.nslip T.nH)
  el : Option Elast
  eos : Option Eos
  tolerance : Option ℝ
  strides : Strides
  rhv : List HistEntry
  opts : List ℤ
  pars : List ℝ
  strs : List String

/-- ECMech_matModelBase.h:30-39 and ECMech_evptnWrap.h:40-53 or 57-152: a new object with the strides
    the constructor has stored -/
noncomputable def MM.new (T : MType) (st : Strides) : MM T where
  complete := false
  rho0 := -1
  cvav := -1
  v0 := -1
  e0 := -1
  bulkRef := -1
  geom := none
  kin := none
  el := none
  eos := none
  tolerance := none
  strides := st
  rhv := []
  opts := []
  pars := []
  strs := []

/-- ECMech_evptnWrap.h:231-264: the history description -/
noncomputable def histDesc (kinInfo : List HistEntry) (nslip : ℕ) : List HistEntry :=
  [⟨"shrate_eff", 0, true, true⟩, ⟨"shr_eff", 0, true, true⟩,
    ⟨"flow_str", 0, true, false⟩, ⟨"n_feval", 0, true, false⟩]
  ++ (List.range 5).map (fun i => ⟨"t" ++ toString (i + 1), 0, true, true⟩)
  ++ (List.range 4).map (fun i => ⟨"quat_" ++ toString (i + 1), if i = 0 then 1 else 0, true, true⟩)
  ++ kinInfo
  ++ (List.range nslip).map (fun i => ⟨"shrate_" ++ toString (i + 1), 0, true, true⟩)

/-- ECMech_evptnWrap.h:222-270: after the parameters have been consumed; `iParam` is the number
    consumed -/
noncomputable def MM.initHist {T : MType} (m : MM T) (iParam : ℕ) (kinInfo : List HistEntry) :
    MM T × Out Unit :=
  if iParam ≠ T.nParams then (m, .fail "wrong number of params")
  else
    let m := { m with rhv := histDesc kinInfo T.nslip }
    if m.rhv.length ≠ T.numHist then (m, .fail "mismatch in numHist") else (m, .ok ())

/-- ECMech_evptnWrap.h:201-220: equation of state -/
noncomputable def MM.initEos {T : MType} (m : MM T) (el : Elast) (kinInfo : List HistEntry)
    (l : List ℝ) : MM T × Out Unit :=
  match el.getBulkMod with
  | .undef w => (m, .undef w)
  | .fail s => (m, .fail s)
  | .ok bulkMod =>
    if l.length < nParamsEOS then (m, .undef "read behind the end of the parameters")
    else
      match Eos.setParams T.isothermal ([m.rho0, bulkMod, m.cvav] ++ l.take nParamsEOS) with
      | .undef w => (m, .undef w)
      | .fail s => ({ m with eos := none }, .fail s)
      | .ok eos =>
        let info := eos.getInfo
        MM.initHist { m with eos := some eos, e0 := info.2.2.1, v0 := info.2.2.2 }
          (m.pars.length - (l.drop nParamsEOS).length) kinInfo

/-- ECMech_evptnWrap.h:197-200: kinetics -/
noncomputable def MM.initKin {T : MType} (S : Solver 1) (m : MM T) (el : Elast) (l : List ℝ) :
    MM T × Out Unit :=
  if l.length < T.kinN then (m, .undef "read behind the end of the parameters")
  else
    match T.setKin S (l.take T.kinN) with
    | .undef w => (m, .undef w)
    | .fail s => ({ m with kin := none }, .fail s)
    | .ok (k, info) => MM.initEos { m with kin := some k } el info (l.drop T.kinN)

/-- ECMech_evptnWrap.h:193-196: elasticity -/
noncomputable def MM.initEl {T : MType} (S : Solver 1) (m : MM T) (l : List ℝ) : MM T × Out Unit :=
  if l.length < T.elN then (m, .undef "read behind the end of the parameters")
  else
    match T.setEl (l.take T.elN) with
    | .undef w => (m, .undef w)
    | .fail s => ({ m with el := none }, .fail s)
    | .ok el => MM.initKin S { m with el := some el } el (l.drop T.elN)

/-- ECMech_evptnWrap.h:182-192: the first three parameters and the slip geometry -/
noncomputable def MM.initGeom {T : MType} (S : Solver 1) (m : MM T) (pars : List ℝ) :
    MM T × Out Unit :=
  match pars with
  | rho0 :: cvav :: tol :: l =>
    let m := { m with rho0 := rho0, cvav := cvav, tolerance := some tol }
    if l.length < T.geomN then (m, .undef "read behind the end of the parameters")
    else
      match T.setGeom (l.take T.geomN) with
      | .undef w => (m, .undef w)
      | .fail s => ({ m with geom := none }, .fail s)
      | .ok g => MM.initEl S { m with geom := some g } (l.drop T.geomN)
  | _ => (m, .undef "read behind the end of the parameters")

/-- ECMech_evptnWrap.h:160-271 initFromParams: the object afterwards and the outcome -/
noncomputable def MM.initFromParams {T : MType} (S : Solver 1) (opts : List ℤ) (pars : List ℝ)
    (strs : List String) (m : MM T) : MM T × Out Unit :=
  let m := { m with opts := opts, pars := pars, strs := strs }
  if pars.length ≠ T.nParams then (m, .fail "wrong number of pars")
  else if opts.length ≠ 0 then (m, .fail "wrong number of opts")
  else if 1 < strs.length then (m, .fail "wrong number of strs")
  else MM.initGeom S m pars

/-- ECMech_evptnWrap.h:275-282 getParams -/
def MM.getParams {T : MType} (m : MM T) : List ℤ × List ℝ × List String := (m.opts, m.pars, m.strs)

/-- ECMech_evptnWrap.h:392-403 getHistInfo -/
def MM.getHistInfo {T : MType} (m : MM T) : Out (List HistEntry) :=
  if m.rhv.length ≠ T.numHist then .fail "have not yet set up history information" else .ok m.rhv

/-- ECMech_matModelBase.h:210-215 getRhoRef -/
noncomputable def MM.getRhoRef {T : MType} (m : MM T) : Out ℝ :=
  if m.rho0 < 0 then .fail "rho0 does not appear to have been set" else .ok m.rho0

/-- ECMech_evptnWrap.h:411-415 complete; `getBulkRef` reads a member of the equation of state that is
    uninitialised before initFromParams (ECMech_eosSimple.h:134-136) -/
def MM.setComplete {T : MType} (m : MM T) : Out (MM T) :=
  match m.eos with
  | none => .undef "bulk modulus read before it is set"
  | some e => .ok { m with bulkRef := e.bulkMod, complete := true }

/-- ECMech_evptnWrap.h:286-388 getResponseECM as a member: fails before `complete`; uses the
    sub-models and the tolerance -/
noncomputable def MM.getResponse {T : MType} (X : Ext) (m : MM T) (a : BatchIn) (nPassed : ℕ)
    (b : BatchMem) : Res BatchMem :=
  if m.complete = false then .fail "not complete" b
  else
    match m.geom, m.kin, m.el, m.eos, m.tolerance with
    | some g, some k, some el, some eos, some tol =>
      getResponseECM X ({ geom := g, kin := k, el := el, eos := eos } : Material T.nslip T.nH)
        m.strides true { a with tol := tol } nPassed b
    | _, _, _, _, _ => .undef "sub-model used before it is set"

/-- a call that may change the object; the remaining member functions are `const` -/
inductive Call
  | init (opts : List ℤ) (pars : List ℝ) (strs : List String)
  | complete

/-- the object after a call -/
noncomputable def MM.call {T : MType} (S : Solver 1) (m : MM T) : Call → Out (MM T)
  | .init opts pars strs =>
    match m.initFromParams S opts pars strs with
    | (_, .undef w) => .undef w
    | (m', _) => .ok m'
  | .complete => m.setComplete

/-- the object after a sequence of calls -/
noncomputable def MM.calls {T : MType} (S : Solver 1) : MM T → List Call → Out (MM T)
  | m, [] => .ok m
  | m, c :: cs => Out.bind (m.call S c) fun m' => MM.calls S m' cs

/-- the models of ECMech_cases.h:14-44 and the two of pyecmech/ecmechpy.cpp:13-19 -/
inductive Case
  | fccA | fccAH | fccB | bccA | hcpA | bccB | bccBH

/-- kinetics with power law and Voce hardening as a template argument -/
noncomputable def kinVoce (nonlinear : Bool) (n : ℕ) (S : Solver 1) (l : List ℝ) :
    Out (Kin n 1 × List HistEntry) :=
  Out.bind (Voce.setParams nonlinear l) fun k => .ok (k.kin S n, k.histInfo)

/-- kinetics of the dislocation density kind as a template argument -/
noncomputable def kinKM (withGA pOne qOne perSS : Bool) (nV : ℕ) [NeZero nV] (n : ℕ) (S : Solver 1)
    (l : List ℝ) : Out (Kin n 1 × List HistEntry) :=
  Out.bind (KMBalD.setParams withGA pOne qOne perSS nV l) fun k => .ok (k.kin S n, k.histInfo)

/-- the slip geometries as template arguments: FCC and BCC take no parameters
    (ECMech_slipgeom.h:61-100, 144-293), HCP takes c/a (333-430) -/
noncomputable def geomFCC : List ℝ → Out (SlipGeom 12) := fun _ => slipGeomFCC
/-- ECMech_slipgeom.h:144-293 with 12 slip systems -/
noncomputable def geomBCC : List ℝ → Out (SlipGeom 12) := fun _ => slipGeomBCC12
/-- ECMech_slipgeom.h:333-430 -/
noncomputable def geomHCP : List ℝ → Out (SlipGeom 24) := fun l =>
  Out.bind (hcpSetParams l) fun r => .ok r.1

/-- ECMech_cases.h:11-44, ecmechpy.cpp:13-19: the template arguments of each model -/
noncomputable def Case.type : Case → MType
  | .fccA => { nslip := 12, nH := 1, geomN := 0, setGeom := geomFCC, elN := 3, setEl := Elast.setCubic
               kinN := Voce.nParams false, setKin := kinVoce false 12, isothermal := false }
  | .fccAH => { nslip := 12, nH := 1, geomN := 0, setGeom := geomFCC, elN := 3, setEl := Elast.setCubic
                kinN := Voce.nParams true, setKin := kinVoce true 12, isothermal := false }
  | .fccB => { nslip := 12, nH := 1, geomN := 0, setGeom := geomFCC, elN := 3, setEl := Elast.setCubic
               kinN := KMBalD.nParams 1, setKin := kinKM false false false false 1 12
               isothermal := false }
  | .bccA => { nslip := 12, nH := 1, geomN := 0, setGeom := geomBCC, elN := 3, setEl := Elast.setCubic
               kinN := KMBalD.nParams 1, setKin := kinKM true false false false 1 12
               isothermal := false }
  | .hcpA => { nslip := 24, nH := 1, geomN := 1, setGeom := geomHCP, elN := 6, setEl := Elast.setHexag
               kinN := KMBalD.nParams 24, setKin := kinKM true true true true 24 24
               isothermal := false }
  | .bccB => { nslip := 12, nH := 1, geomN := 0, setGeom := geomBCC, elN := 3, setEl := Elast.setCubic
               kinN := Voce.nParams false, setKin := kinVoce false 12, isothermal := false }
  | .bccBH => { nslip := 12, nH := 1, geomN := 0, setGeom := geomBCC, elN := 3, setEl := Elast.setCubic
                kinN := Voce.nParams true, setKin := kinVoce true 12, isothermal := false }

/-- ECMech_cases.cxx:8-37 makeMatModel: which class is created -/
def makeMatModel (name : String) : Out Case :=
  if name = "evptn_FCC_A" then .ok .fccA
  else if name = "evptn_FCC_AH" then .ok .fccAH
  else if name = "evptn_FCC_B" then .ok .fccB
  else if name = "evptn_BCC_A" then .ok .bccA
  else if name = "evptn_HCP_A" then .ok .hcpA
  else .fail ("model name not recognized : " ++ name)

end Ecm
