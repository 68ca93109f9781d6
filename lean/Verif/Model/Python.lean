/-
  Model of the Python bindings: pyecmech/ecmechpy.cpp (pyECMech) and pyecmech/ecmech_classes.hpp
  (pyEvptn_norm, used by pyECMechDev).

  An argument of type py_darray (`pybind11::array_t<double>`, ecmechpy.hpp:11) is a numpy array of
  doubles with any strides: the flag that would force C order is not given.  The conversion of arrays
  of another element type by pybind11 (which makes a copy) is in Model/PyCall.
-/
import Verif.Model.Wrap

namespace Ecm
open Classical

/-- a numpy array: shape, strides (in elements), the allocation it lives in and the position of its
    first element in the allocation -/
structure PyArr where
  shape : List ℕ
  strides : List ℤ
  mem : Buf
  off : ℕ

/-- the memory from `buffer_info::ptr` on, as C++ sees it -/
def PyArr.ptr (a : PyArr) : Buf where
  len := a.mem.len - a.off
  val := fun k => a.mem.val (a.off + k)

/-- conversion of a 64-bit size to `int` (ecmechpy.cpp:67, 175) -/
def toInt32 (k : ℕ) : ℤ := if k % 2 ^ 32 < 2 ^ 31 then ((k % 2 ^ 32 : ℕ) : ℤ) else ((k % 2 ^ 32 : ℕ) : ℤ) - 2 ^ 32

/-- ecmechpy.cpp:61-76 (and 169-184): the parameter vector read from a numpy array -/
noncomputable def pyParams (p : PyArr) : Out (List ℝ) :=
  match p.shape with
  | [k] =>
    if toInt32 k < 0 then .fail "vector::resize"
    else if p.ptr.len < (toInt32 k).toNat then .undef "read behind the end of the array"
    else .ok ((List.range (toInt32 k).toNat).map p.ptr.val)
  | _ => .fail "Number of dimensions must be one"

/-- ecmechpy.cpp:82-107 (and 187-203): the model for a Python name -/
def pyCase (name : String) : Out Case :=
  if name = "voce_fcc_norm" then makeMatModel "evptn_FCC_A"
  else if name = "voce_nl_fcc_norm" then makeMatModel "evptn_FCC_AH"
  else if name = "voce_bcc_norm" then .ok .bccB
  else if name = "voce_nl_bcc_norm" then .ok .bccBH
  else if name = "km_bal_dd_fcc_norm" then makeMatModel "evptn_FCC_B"
  else if name = "km_bal_dd_bcc_norm" then makeMatModel "evptn_BCC_A"
  else if name = "km_bal_dd_hcp_norm" then makeMatModel "evptn_HCP_A"
  else .fail "Provided an unknown model name"

/-- ecmechpy.cpp:58-113 pyECMech::pyECMech -/
noncomputable def pyNew (S : Solver 1) (name : String) (p : PyArr) : Out ((c : Case) × MM c.type) :=
  Out.bind (pyParams p) fun pars =>
    Out.bind (pyCase name) fun c =>
      let r := (MM.new c.type (Strides.default c.type.numHist)).initFromParams S [] pars []
      Out.bind r.2 fun _ => Out.bind r.1.setComplete fun m => .ok ⟨c, m⟩

/-- ecmechpy.cpp:35-55 check2D_dim: does it pass -/
def check2D (a : PyArr) (dim1 dim2 : ℤ) : Prop :=
  match a.shape with
  | [r, c] => (r : ℤ) = dim1 ∧ (c : ℤ) = dim2
  | _ => False

/-- the arrays of pyECMech::solve (ecmechpy.cpp:130-139) -/
structure PyArgs where
  defRate : PyArr
  spin : PyArr
  volRatio : PyArr
  eInt : PyArr
  stress : PyArr
  hist : PyArr
  tkelv : PyArr
  sdd : PyArr

/-- ecmechpy.cpp:141-149: all checks of the shapes -/
structure PyChecks (nHist : ℕ) (a : PyArgs) (nPassed : ℤ) : Prop where
  defRate : check2D a.defRate nPassed 7
  spin : check2D a.spin nPassed 3
  volRatio : check2D a.volRatio nPassed 4
  eInt : check2D a.eInt nPassed 1
  stress : check2D a.stress nPassed 7
  hist : check2D a.hist nPassed nHist
  tkelv : check2D a.tkelv nPassed 1
  sdd : check2D a.sdd nPassed 2

/-- the read-only arrays as C++ sees them; the tolerance is put in by the model -/
def PyArgs.inp (a : PyArgs) (dt : ℝ) : BatchIn where
  dt := dt
  tol := 0
  defRate := a.defRate.ptr
  spin := a.spin.ptr
  volRatio := a.volRatio.ptr

/-- the read-write arrays as C++ sees them, with a null pointer for the tangent
    (ecmechpy.cpp:151-161) -/
def PyArgs.out (a : PyArgs) : BatchMem where
  eInt := a.eInt.ptr
  stress := a.stress.ptr
  hist := a.hist.ptr
  tkelv := a.tkelv.ptr
  sdd := a.sdd.ptr
  mtan := none

/-- ecmechpy.cpp:130-162 pyECMech::solve; different arguments are assumed to live in different memory -/
noncomputable def pySolve {T : MType} (X : Ext) (m : MM T) (dt : ℝ) (a : PyArgs) (nPassed : ℤ) :
    Res BatchMem :=
  if PyChecks T.numHist a nPassed then m.getResponse X (a.inp dt) nPassed.toNat a.out
  else .fail "Dimensions for variable" a.out

/-! ### single-point binding -/

/-- ecmech_classes.hpp:408-409 nParams: the parameters of the slip geometry are not counted -/
def MType.devParams (T : MType) : ℕ := 2 + 1 + T.kinN + T.elN + nParamsEOS

/-- members of pyEvptn_norm after construction (ecmech_classes.hpp:56-84, 393-398) -/
structure Dev (T : MType) where
  rho0 : ℝ
  cvav : ℝ
  tolerance : ℝ
  mat : Material T.nslip T.nH
  hist : List HistEntry

/-- ecmech_classes.hpp:143-177: the history description -/
noncomputable def devHistDesc (kinInfo : List HistEntry) (nslip : ℕ) : List HistEntry :=
  [⟨"effective_shearing_rate", 0, true, true⟩, ⟨"effective_shearing", 0, true, true⟩,
    ⟨"flow_strength", 0, true, false⟩, ⟨"n_function_evals", 0, true, false⟩]
  ++ (List.range 5).map (fun i => ⟨"deviatoric_elastic_strain_" ++ toString (i + 1), 0, true, true⟩)
  ++ (List.range 4).map (fun i => ⟨"quat_" ++ toString (i + 1), if i = 0 then 1 else 0, true, true⟩)
  ++ kinInfo
  ++ (List.range nslip).map (fun i => ⟨"shearing_rate_" ++ toString (i + 1), 0, true, true⟩)

/-- the next `k` parameters and the rest: construction of `paramsThese` -/
def takePars (k : ℕ) (l : List ℝ) : Out (List ℝ × List ℝ) :=
  if l.length < k then .undef "read behind the end of the parameters" else .ok (l.take k, l.drop k)

/-- ecmech_classes.hpp:92-186: the constructor -/
noncomputable def Dev.new (T : MType) (S : Solver 1) (pars : List ℝ) : Out (Dev T) :=
  if pars.length ≠ T.devParams then .fail "wrong number of params"
  else
    Out.bind (takePars 3 pars) fun h =>
    Out.bind (takePars T.geomN h.2) fun gl => Out.bind (T.setGeom gl.1) fun g =>
    Out.bind (takePars T.elN gl.2) fun el => Out.bind (T.setEl el.1) fun e =>
    Out.bind (takePars T.kinN el.2) fun kl => Out.bind (T.setKin S kl.1) fun k =>
    Out.bind e.getBulkMod fun bulkMod =>
    Out.bind (takePars nParamsEOS kl.2) fun sl =>
    Out.bind (Eos.setParams T.isothermal ([h.1.getD 0 0, bulkMod, h.1.getD 1 0] ++ sl.1)) fun eos =>
      if pars.length - sl.2.length ≠ T.devParams then .fail "wrong number of params"
      else if (devHistDesc k.2 T.nslip).length ≠ T.numHist then .fail "mismatch in numHist"
      else .ok { rho0 := h.1.getD 0 0, cvav := h.1.getD 1 0, tolerance := h.1.getD 2 0
                 mat := { geom := g, kin := k.1, el := e, eos := eos }
                 hist := devHistDesc k.2 T.nslip }

/-- what setup leaves in the object (ecmech_classes.hpp:56-84, 190-284) -/
structure DevProb (n nH : ℕ) where
  dt : ℝ
  d : Vec 7
  tkelv : ℝ
  quatN : Vec 4
  eos : EosUpdate
  hardU : Vec nH
  prob : Updst n

variable {n nH : ℕ}

/-- ecmech_classes.hpp:190-284 setup.  `undef` where the C++ would divide by zero, as in
    `Step.setup`. -/
noncomputable def devSetup (M : Material n nH) (inp : Inputs) (m : Mem nH n) : Out (DevProb n nH) :=
  let H := Hist.ofArray m.hist
  let dVecd := svecToVecd inp.d
  if H.q = 0 then .undef "normalisation of a zero quaternion"
  else if M.eos.cvav = 0 then .undef "division by zero specific heat"
  else
    let quat := vecsVNormalize H.q
    let eOld := m.eInt
    let pOld := m.stress 6
    let tkelv := (M.eos.evalPT (inp.vr 0) eOld).2
    let u := M.eos.updateSimple (inp.vr 1) (inp.vr 3) eOld pOld
    Out.bind (M.kin.updateH H.h inp.dt H.gdot) fun hU =>
      Out.bind (Updst.make M.geom M.kin M.el inp.dt (inp.vr 1) u.eNew u.press tkelv hU.1 H.e quat
        dVecd inp.w) fun P =>
        .ok { dt := inp.dt, d := inp.d, tkelv := tkelv, quatN := quat, eos := u, hardU := hU.1
              prob := P }

/-- results of getState; `eInt = none`: indeterminate -/
structure DevOut (nH n : ℕ) where
  eInt : Option ℝ
  stress : Vec 7
  hist : Vec (numHist nH n)
  tkelv : ℝ
  sdd : Vec 2

/-- ecmech_classes.hpp:294-387 getState.  `xLast` is the point of the last call of computeRJ (it
    determines `getGdot`, `getShrateEff` and `getDisRate`).  The members m_eDevTot and m_halfVMidDt,
    used at line 360, are assigned nowhere before, hence the energy is indeterminate. -/
noncomputable def devGetState (el : Elast) (D : DevProb n nH) (xLast x : Vec 8) (hist : Vec (numHist nH n)) :
    Out (DevOut nH n) :=
  let H := Hist.ofArray hist
  let e := D.prob.eF x
  let q := D.prob.cQuat x
  let shrate := D.prob.shrateEff xLast
  let dEff := vecdDeff (svecToVecd D.d)
  let lat := D.prob.elastNEtoC e
  let sm := vecsVMa (getRotMatVecd (quatToTensor q)) (fun i : Fin 5 => lat i.castSucc)
  Out.bind el.getGmod fun g => .ok
    { eInt := none
      stress := vecdsToSvecP ![sm 0, sm 1, sm 2, sm 3, sm 4, lat 5]
      hist := Hist.toArray
        { shrateEff := shrate
          shrEff := H.shrEff + shrate * D.dt
          flowStr := if idpTinySqrt < dEff then D.prob.disRate xLast / dEff else D.prob.hdnScale
          nFEval := 0
          e := e
          q := if vecsyadotb q D.quatN < 0 then -q else q
          h := D.hardU
          gdot := D.prob.gdot xLast }
      tkelv := D.tkelv
      sdd := ![D.eos.bulkNew, g] }

end Ecm
