/-
  Model of the developer's Python object as an object with a state: pyEvptn_norm (pyecmech/ecmech_classes.hpp) behind
  pyECMechDev (pyecmech/ecmechpy.cpp:221-264), and of the script pyecmech/example-dev.py that uses it.

  Model/Python has setup and getState as functions of their arguments; here the calls may come in any order.  Except in
  the last section, arrays are taken to be contiguous and long enough (the binding checks neither, ecmechpy.cpp:232-263).
-/
import Verif.Model.PyCall

namespace Ecm
open Classical

/-- what the last call of computeRJ left in the problem object: `_gdot`, `_shrate_eff_contrib`, `_dp_dis_rate_contrib`
    (ECMech_evptn.h:623, 656-668) -/
structure DevLast (n : ℕ) where
  gdot : Vec n
  shrateEff : ℝ
  disRate : ℝ

/-- the object behind the pointer `prob` (ecmech_classes.hpp:285-290).  EvptnUpdstProblem copies the numbers and stores its
    scale factors when it is constructed, but keeps pointers to the arrays m_e_vecd_n, m_quat_n, m_d_vecd_sm, m_w_veccp_sm
    (ECMech_evptn.h:414-457, 974-978): `built` is the object as constructed, `now` has the arrays as they are now.
    `last = none`: the constructor does not initialise those members. -/
structure DevPtr (n : ℕ) where
  built : Updst n
  now : Updst n
  last : Option (DevLast n)

/-- the members that setup assigns before it can fail (ecmech_classes.hpp:202-275) and that getState reads -/
structure DevSet where
  dt : ℝ
  d : Vec 7
  tkelv : ℝ
  quatN : Vec 4
  eos : EosUpdate

/-- the state of the object; `none`: not assigned yet, null pointer for `prob`.  The members m_eDevTot and m_halfVMidDt
    (ecmech_classes.hpp:77-78) are initialised nowhere: they hold what the memory held when the object was made. -/
structure DevObj (n nH : ℕ) where
  set : Option DevSet
  hardU : Option (Vec nH)
  prob : Option (DevPtr n)
  eDevTot : ℝ
  halfVMidDt : ℝ

/-- ecmech_classes.hpp:92-186: an object just constructed, in memory that held `a` and `b` at the two members -/
def DevObj.new {n nH : ℕ} (a b : ℝ) : DevObj n nH where
  set := none
  hardU := none
  prob := none
  eDevTot := a
  halfVMidDt := b

variable {n nH : ℕ}

/-- ecmech_classes.hpp:202-275: the members after the part of setup that comes before updateH -/
noncomputable def devSetOf (M : Material n nH) (inp : Inputs) (m : Mem nH n) : DevSet where
  dt := inp.dt
  d := inp.d
  tkelv := (M.eos.evalPT (inp.vr 0) m.eInt).2
  quatN := vecsVNormalize (Hist.ofArray m.hist).q
  eos := M.eos.updateSimple (inp.vr 1) (inp.vr 3) m.eInt (m.stress 6)

/-- ecmech_classes.hpp:206-247: the arrays an existing problem object points to are overwritten -/
noncomputable def DevPtr.overwrite (p : DevPtr n) (inp : Inputs) (m : Mem nH n) : DevPtr n where
  built := p.built
  now := { p.now with
    eN := (Hist.ofArray m.hist).e
    cN := vecsVNormalize (Hist.ofArray m.hist).q
    dSm := svecToVecd inp.d
    wSm := inp.w }
  last := p.last

/-- ecmech_classes.hpp:190-292 setup.  When updateH fails (an exception, ECMech_port.h:27) m_hard_u and the pointer `prob`
    are as before, but the other members have been assigned.  A failure inside the constructor of the problem would leave a
    pointer to a deleted object; none of the kinetics of this library fails there. -/
noncomputable def DevObj.setup (M : Material n nH) (o : DevObj n nH) (inp : Inputs) (m : Mem nH n) : Res (DevObj n nH) :=
  let H := Hist.ofArray m.hist
  if H.q = 0 then .undef "normalisation of a zero quaternion"
  else if M.eos.cvav = 0 then .undef "division by zero specific heat"
  else
    let s := devSetOf M inp m
    let o1 : DevObj n nH := { o with set := some s, prob := o.prob.map fun p => p.overwrite inp m }
    match M.kin.updateH H.h inp.dt H.gdot with
    | .undef w => .undef w
    | .fail msg => .fail msg o1
    | .ok hU =>
      match Updst.make M.geom M.kin M.el inp.dt (inp.vr 1) s.eos.eNew s.eos.press s.tkelv hU.1 H.e s.quatN
        (svecToVecd inp.d) inp.w with
      | .undef w => .undef w
      | .fail _ => .undef "pointer to a deleted object"
      | .ok P => .ok { o1 with hardU := some hU.1, prob := some ⟨P, P, none⟩ }

/-- ECMech_evptn.h:545-952 computeRJ without tangent, with the scale factors stored at construction -/
noncomputable def DevPtr.resid (p : DevPtr n) (x : Vec 8) : Vec 8 :=
  block8 (fun i => p.built.epsdotScaleInv * p.now.residE x i) (fun i => p.built.rotincrScaleInv * p.now.residR x i)

/-- ECMech_evptn.h:914-948 with the scale factors stored at construction -/
noncomputable def DevPtr.jac (p : DevPtr n) (x : Vec 8) : Mat 8 8 := fun i j =>
  p.now.jacU x i j * ((if i.val < 5 then p.built.epsdotScaleInv else p.built.rotincrScaleInv)
    * if j.val < 5 then eScale else rScale)

/-- ecmech_classes.hpp:294-299 computeRJ -/
noncomputable def DevObj.computeRJ (o : DevObj n nH) (x : Vec 8) : Out ((Vec 8 × Mat 8 8) × DevObj n nH) :=
  match o.prob with
  | none => .undef "member function called through a null pointer"
  | some p => .ok ((p.resid x, p.jac x),
      { o with prob := some { p with last := some ⟨p.now.gdot x, p.now.shrateEff x, p.now.disRate x⟩ } })

/-- ecmech_classes.hpp:301-391 getState; the arguments eInt, stressSvecP, hist, tkelv, sdd are fields of `v`.  As the
    Python caller sees it (ecmechpy.cpp:251-264, ecmech_pybind11.cpp:123): what is written to `tkelv` is lost.  When getGmod
    (line 369) fails, stress and history and m_eDevTot have been written. -/
noncomputable def DevObj.getState (el : Elast) (o : DevObj n nH) (x : Vec 8) (v : Mem nH n) :
    Res (Mem nH n × DevObj n nH) :=
  match o.prob, o.set, o.hardU with
  | some p, some s, some hU =>
    match p.last with
    | none => .undef "uninitialised slip rates"
    | some r =>
      let H := Hist.ofArray v.hist
      let e := p.now.eF x
      let q := p.now.cQuat x
      let dEff := vecdDeff p.now.dSm
      let lat := p.now.elastNEtoC e
      let sm := vecsVMa (getRotMatVecd (quatToTensor q)) (fun i : Fin 5 => lat i.castSucc)
      let stress := vecdsToSvecP ![sm 0, sm 1, sm 2, sm 3, sm 4, lat 5]
      let v1 : Mem nH n := { v with
        stress := stress
        hist := Hist.toArray
          { shrateEff := r.shrateEff
            shrEff := H.shrEff + r.shrateEff * s.dt
            flowStr := if idpTinySqrt < dEff then r.disRate / dEff else p.now.hdnScale
            nFEval := 0
            e := e
            q := if vecsyadotb q s.quatN < 0 then -q else q
            h := hU
            gdot := r.gdot } }
      let o1 : DevObj n nH := { o with eDevTot := o.eDevTot + o.halfVMidDt * vecsInnerSvecDev stress s.d }
      match el.getGmod with
      | .undef w => .undef w
      | .fail msg => .fail msg (v1, o1)
      | .ok g =>
        let eNew := s.eos.eNew + o1.eDevTot
        .ok ({ v1 with sdd := ![s.eos.bulkNew, g], eInt := eNew },
          { o1 with set := some { s with eos := { s.eos with eNew := eNew } } })
  | _, _, _ => .undef "member function called through a null pointer"

/-! ### Sequences of calls -/

/-- a call of a member function of pyECMechDev (ecmechpy.hpp, ecmechpy.cpp:221-264) -/
inductive DevCall (n nH : ℕ) where
  | setup (inp : Inputs) (m : Mem nH n)
  | computeRJ (x : Vec 8)
  | getState (x : Vec 8) (v : Mem nH n)

/-- one call, with the exceptions caught by the caller (pybind11 turns them into Python exceptions); what is returned to the
    caller is dropped -/
noncomputable def DevObj.call (M : Material n nH) (o : DevObj n nH) : DevCall n nH → Out (DevObj n nH)
  | .setup inp m => match o.setup M inp m with
    | .ok o' => .ok o'
    | .fail _ o' => .ok o'
    | .undef w => .undef w
  | .computeRJ x => Out.bind (o.computeRJ x) fun r => .ok r.2
  | .getState x v => match o.getState M.el x v with
    | .ok r => .ok r.2
    | .fail _ r => .ok r.2
    | .undef w => .undef w

/-- a sequence of calls -/
noncomputable def DevObj.calls (M : Material n nH) : List (DevCall n nH) → DevObj n nH → Out (DevObj n nH)
  | [], o => .ok o
  | c :: l, o => Out.bind (o.call M c) fun o' => DevObj.calls M l o'

/-! ### pyecmech/example-dev.py -/

/-- scipy.optimize.root (not part of this repository): the point it returns and the point at which it evaluated the function
    last.  It evaluates the function at least once.  `sol.success` is not looked at by the script (example-dev.py:60-62,
    151-153) and therefore left out. -/
abbrev Root := Problem 8 → ℝ → Vec 8 → Vec 8 × Vec 8

/-- the variables of the Python program: objects by number, all with the same material -/
abbrev DevHeap (n nH : ℕ) := ℕ → DevObj n nH

/-- the function that the script passes to root: example-dev.py:71-78 -/
noncomputable def DevPtr.problem (p : DevPtr n) : Problem 8 := fun x => some (p.resid x, p.jac x)

/-- example-dev.py:56-62: one point in ECMechProbDev.solve, called for the object number `i`; line 62 calls getState of
    the global variable `prob`, which is the object number `g` -/
noncomputable def devPoint (R : Root) (M : Material n nH) (i g : ℕ) (w : DevHeap n nH) (inp : Inputs) (m : Mem nH n) :
    Out (Mem nH n × DevHeap n nH) :=
  match (w i).setup M inp m with
  | .undef e => .undef e
  | .fail e _ => .fail e
  | .ok o1 =>
    match o1.prob with
    | none => .undef "member function called through a null pointer"
    | some p =>
      let sol := R p.problem inp.tol (fun _ => 0)
      Out.bind (o1.computeRJ sol.2) fun r =>
        let w2 := Function.update w i r.2
        match (w2 g).getState M.el sol.1 m with
        | .undef e => .undef e
        | .fail e _ => .fail e
        | .ok s => .ok (s.1, Function.update w2 g s.2)

/-- example-dev.py:56-64: the loop over the points; the moduli start from zeros (line 52) -/
noncomputable def devSolve (R : Root) (M : Material n nH) (i g : ℕ) :
    List (Inputs × Mem nH n) → DevHeap n nH → Out (List (Mem nH n) × DevHeap n nH)
  | [], w => .ok ([], w)
  | (inp, m) :: l, w =>
    Out.bind (devPoint R M i g w inp { m with sdd := 0 }) fun r =>
      Out.bind (devSolve R M i g l r.2) fun s => .ok (r.1 :: s.1, s.2)

/-- example-dev.py:129-132 and 159-162: the volume ratios of the next step -/
noncomputable def devVol (v : Vec 4) : Out (Vec 4) :=
  let v0 := v 1
  let v1 := v0 * Real.exp (scriptRate.getD 6 0 * scriptDt)
  let v3 := v1 - v0
  if scriptDt * 0.5 * (v0 + v1) = 0 then .undef "division by zero"
  else .ok ![v0, v1, v3 / (scriptDt * 0.5 * (v0 + v1)), v3]

/-- example-dev.py:112-127, 134: the inputs of a step -/
noncomputable def devInp (vr : Vec 4) : Inputs where
  dt := scriptDt
  tol := 1e-10
  d := fun j => scriptRate.getD j 0
  w := 0
  vr := vr

/-- example-dev.py:157-167: `K` passes of the loop, with the numbers printed; one point per call, `prob` is the only
    object -/
noncomputable def devLoop (R : Root) (M : Material n nH) : ℕ → Vec 4 → Mem nH n → DevHeap n nH → Out (List ℝ)
  | 0, _, _, _ => .ok []
  | K + 1, vr, m, w =>
    Out.bind (devVol vr) fun vr' =>
      Out.bind (devSolve R M 0 0 [(devInp vr', m)] w) fun r =>
        match r.1 with
        | [m'] => Out.bind (devLoop R M K vr' m' r.2) fun l => .ok (m'.stress 0 :: l)
        | _ => .undef "not one row"

/-- example-dev.py:109-167: the whole script; the two numbers are what the memory of the object held.  The first step is
    done by hand (lines 148-154); there the moduli are an array of integers (line 135), so that what getState writes for
    them is lost. -/
noncomputable def devScript (S : Solver 1) (R : Root) (a b : ℝ) : Out (List ℝ) :=
  Out.bind (Dev.new Case.fccA.type S scriptPars) fun D =>
    let m0 : Mem Case.fccA.type.nH Case.fccA.type.nslip :=
      { eInt := 0, stress := 0, hist := fun j => (D.hist.map HistEntry.init).getD j 0, tkelv := 300, sdd := 0
        mtan := none }
    Out.bind (devVol ![1.0, 1.0, 0.0, 0.0]) fun vr =>
      Out.bind (devPoint R D.mat 0 0 (fun _ => DevObj.new a b) (devInp vr) m0) fun r =>
        Out.bind (devLoop R D.mat 40 vr { r.1 with sdd := 0 } r.2) fun l => .ok (r.1.stress 0 :: l)

/-! ### Arrays as the binding reads them -/

/-- `(double*) a.request().ptr` (ecmechpy.cpp:233-263), of which `k` elements are read one after the other -/
noncomputable def PyArr.raw (k : ℕ) (a : PyArr) : Out (Vec k) :=
  if a.ptr.len < k then .undef "read beyond the end of an array" else .ok fun j => a.ptr.val j

/-- the arrays passed to setup (ecmechpy.cpp:221-229) -/
structure DevArrs where
  d : PyArr
  w : PyArr
  vr : PyArr
  eInt : PyArr
  stress : PyArr
  hist : PyArr

/-- ecmechpy.cpp:221-240 and ecmech_classes.hpp:206-231: setup called from Python.  All elements of the arrays are copied,
    in the order of the fields of DevArrs except that d and stress are read together; nothing is checked. -/
noncomputable def DevObj.setupPy (M : Material n nH) (o : DevObj n nH) (dt tol : ℝ) (a : DevArrs) (tkelv : ℝ) :
    Res (DevObj n nH) :=
  match a.d.raw 7, a.w.raw 3, a.vr.raw 4, a.eInt.raw 1, a.stress.raw 7, a.hist.raw (numHist nH n) with
  | .ok d, .ok w, .ok vr, .ok e, .ok s, .ok h =>
    o.setup M { dt := dt, tol := tol, d := d, w := w, vr := vr }
      { eInt := e 0, stress := s, hist := h, tkelv := tkelv, sdd := 0, mtan := none }
  | _, _, _, _, _, _ => .undef "read beyond the end of an array"

end Ecm
