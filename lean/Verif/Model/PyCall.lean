/-
  Model of a call of the Python bindings as the Python caller sees it, and of the script pyecmech/example.py.

  The arguments of pyECMech::solve are of type `py_darray &` with py_darray = pybind11::array_t<double>
  (ecmechpy.hpp:11, 26-36; ecmech_pybind11.cpp:63-74).  pybind11 (not part of the repository; its documentation, "NumPy",
  section "Arrays": the default flag is array::forcecast) hands over the caller's own array if the elements are doubles,
  and otherwise a newly made array with the same numbers, which is thrown away after the call.
  Objects that cannot be converted (a TypeError before any C++ code runs) are not modelled, nor is the rounding when
  integers of more than 53 bits become doubles.
-/
import Verif.Model.Python

namespace Ecm
open Classical

/-- an array as a Python caller has it; `double`: its elements are doubles (dtype float64), not integers or the like -/
structure PyObj where
  double : Bool
  arr : PyArr

/-- numpy: the value of an element -/
def PyArr.get (a : PyArr) (idx : List ℕ) : ℝ :=
  a.mem.val (a.off + (List.zipWith (fun (s : ℤ) (i : ℕ) => s * (i : ℤ)) a.strides idx).sum).toNat

/-- numpy: the indices of the `k`-th element in C order -/
def unravel : List ℕ → ℕ → List ℕ
  | [], _ => []
  | _ :: ss, k => k / ss.prod :: unravel ss (k % ss.prod)

/-- numpy: the strides of a new array in C order -/
def cStrides : List ℕ → List ℤ
  | [] => []
  | _ :: ss => (ss.prod : ℤ) :: cStrides ss

/-- numpy: a new array in C order with the same shape and numbers -/
def PyArr.fresh (a : PyArr) : PyArr where
  shape := a.shape
  strides := cStrides a.shape
  mem := { len := a.shape.prod, val := fun k => a.get (unravel a.shape k) }
  off := 0

/-- ecmechpy.hpp:11: what arrives in C++ -/
def PyObj.convert (o : PyObj) : PyArr := if o.double then o.arr else o.arr.fresh

/-- the allocation after the memory from the first element on has become `b` -/
def PyArr.write (a : PyArr) (b : Buf) : PyArr :=
  { a with mem := { len := a.mem.len, val := fun k => if a.off ≤ k then b.val (k - a.off) else a.mem.val k } }

/-- the caller's array after the call, if C++ has left `b` behind the pointer it was given -/
def PyObj.after (o : PyObj) (b : Buf) : PyObj := if o.double then { o with arr := o.arr.write b } else o

/-- the objects passed to `solve` -/
structure PyObjs where
  defRate : PyObj
  spin : PyObj
  volRatio : PyObj
  eInt : PyObj
  stress : PyObj
  hist : PyObj
  tkelv : PyObj
  sdd : PyObj

/-- the arguments of pyECMech::solve -/
def PyObjs.args (o : PyObjs) : PyArgs where
  defRate := o.defRate.convert
  spin := o.spin.convert
  volRatio := o.volRatio.convert
  eInt := o.eInt.convert
  stress := o.stress.convert
  hist := o.hist.convert
  tkelv := o.tkelv.convert
  sdd := o.sdd.convert

/-- the caller's objects after the call -/
def PyObjs.after (o : PyObjs) (b : BatchMem) : PyObjs :=
  { o with eInt := o.eInt.after b.eInt, stress := o.stress.after b.stress, hist := o.hist.after b.hist
           tkelv := o.tkelv.after b.tkelv, sdd := o.sdd.after b.sdd }

/-- ecmech_pybind11.cpp:63-74: `solve` as called from Python; different objects are assumed to live in different
    memory -/
noncomputable def pyCall {T : MType} (X : Ext) (m : MM T) (dt : ℝ) (o : PyObjs) (nPassed : ℤ) : Res PyObjs :=
  match pySolve X m dt o.args nPassed with
  | .ok b => .ok (o.after b)
  | .fail s b => .fail s (o.after b)
  | .undef w => .undef w

/-! ### The single-point binding -/

/-- the variables of a caller of pyECMechDev; the temperature is a Python number, not an array -/
structure DevVars (nH n : ℕ) where
  eInt : Option ℝ
  stress : Vec 7
  hist : Vec (numHist nH n)
  tkelv : ℝ
  sdd : Vec 2

/-- ecmechpy.cpp:251-264 with ecmech_pybind11.cpp:123 (getState of pyECMechDev), as the caller sees it, for arrays of
    doubles: the parameter `double& tkelv` is bound to a temporary made from the caller's number, so that what getState
    writes there is lost.  Returns `None`. -/
noncomputable def devCallState {n nH : ℕ} (el : Elast) (D : DevProb n nH) (xLast x : Vec 8) (v : DevVars nH n) :
    Out (DevVars nH n) :=
  Out.bind (devGetState el D xLast x v.hist) fun o =>
    .ok { eInt := o.eInt, stress := o.stress, hist := o.hist, tkelv := v.tkelv, sdd := o.sdd }

/-! ### pyecmech/example.py -/

/-- a new one-dimensional array of doubles -/
def PyArr.ofList (l : List ℝ) : PyArr where
  shape := [l.length]
  strides := [1]
  mem := { len := l.length, val := fun k => l.getD k 0 }
  off := 0

/-- numpy.atleast_2d: a view of a one-dimensional array as one row (with stride zero along the new axis); arrays with
    two dimensions are returned as they are -/
def PyArr.atleast2d (a : PyArr) : PyArr :=
  match a.shape, a.strides with
  | [k], [s] => { a with shape := [1, k], strides := [0, s] }
  | _, _ => a

/-- numpy.zeros((r, c)) -/
def PyArr.zeros2 (r c : ℕ) : PyArr where
  shape := [r, c]
  strides := [(c : ℤ), 1]
  mem := { len := r * c, val := fun _ => 0 }
  off := 0

/-- numpy.atleast_2d of a Python number: a new array with one row and one column -/
def PyArr.ofNumber (x : ℝ) : PyArr where
  shape := [1, 1]
  strides := [1, 1]
  mem := { len := 1, val := fun _ => x }
  off := 0

/-- example.py:60-78: the parameters -/
noncomputable def scriptPars : List ℝ :=
  [8.920e-6, 0.003435984, 1.0e-10, 168.4e0, 121.4e0, 75.2e0, 44.0e0, 0.02e0, 1.0e0, 400.0e-3, 17.0e-3, 122.4e-3, 0.0, 5.0e9,
    17.0e-3, 0.0, -1.0307952]

/-- example.py:83 -/
noncomputable def scriptDt : ℝ := 0.1

/-- example.py:85-92: the deformation rate -/
noncomputable def scriptRate : List ℝ :=
  let tr : ℝ := 1.0 / 3.0
  [(1.0 - tr) * 0.001, -tr * 0.001, -tr * 0.001, 0 * 0.001, 0 * 0.001, 0 * 0.001, 3.0 * tr * 0.001]

/-- example.py:114-117: the volumes, changed in place; `undef` for a division by zero -/
noncomputable def scriptVol (v : PyArr) : Out PyArr :=
  let v0 := v.get [1]
  let v1 := v0 * Real.exp (scriptRate.getD 6 0 * scriptDt)
  let v3 := v1 - v0
  if scriptDt * 0.5 * (v0 + v1) = 0 then .undef "division by zero"
  else .ok { v with mem := v.mem.put v.off ![v0, v1, v3 / (scriptDt * 0.5 * (v0 + v1)), v3] }

/-- the variables of the script that change -/
structure ScriptVars where
  vol : PyArr
  eInt : PyArr
  stress : PyArr
  hist : PyArr
  tkelv : PyArr

/-- example.py:42-53: the objects that ECMechProb.solve passes on -/
noncomputable def ScriptVars.objs (v : ScriptVars) : PyObjs where
  defRate := ⟨true, (PyArr.ofList scriptRate).atleast2d⟩
  spin := ⟨true, (PyArr.ofList [0, 0, 0]).atleast2d⟩
  volRatio := ⟨true, v.vol.atleast2d⟩
  eInt := ⟨true, v.eInt.atleast2d⟩
  stress := ⟨true, v.stress.atleast2d⟩
  hist := ⟨true, v.hist.atleast2d⟩
  tkelv := ⟨true, v.tkelv.atleast2d⟩
  sdd := ⟨true, PyArr.zeros2 1 2⟩

/-- example.py:112-122: one pass of the loop, with the number that is printed.  `npts` is 1: `eInt` has one row. -/
noncomputable def scriptStep {T : MType} (X : Ext) (m : MM T) (v : ScriptVars) : Out (ScriptVars × ℝ) :=
  Out.bind (scriptVol v.vol) fun vol =>
    match pyCall X m scriptDt ({ v with vol := vol } : ScriptVars).objs 1 with
    | .undef w => .undef w
    | .fail s _ => .fail s
    | .ok o => .ok ({ vol := vol, eInt := o.eInt.arr, stress := o.stress.arr, hist := o.hist.arr, tkelv := o.tkelv.arr },
        o.stress.arr.get [0, 0])

/-- `K` passes of the loop, with the numbers printed -/
noncomputable def scriptLoop {T : MType} (X : Ext) (m : MM T) : ℕ → ScriptVars → Out (List ℝ)
  | 0, _ => .ok []
  | K + 1, v => Out.bind (scriptStep X m v) fun r => Out.bind (scriptLoop X m K r.1) fun l => .ok (r.2 :: l)

/-- example.py:80-122: the whole script; the initial history is the array given by getHistoryInfo
    (ecmechpy.cpp:115-128) -/
noncomputable def pyScript (S : Solver 1) (X : Ext) : Out (List ℝ) :=
  Out.bind (pyNew S "voce_fcc_norm" (PyArr.ofList scriptPars)) fun r =>
    Out.bind r.2.getHistInfo fun d =>
      scriptLoop X r.2 41
        { vol := PyArr.ofList [1.0, 1.0, 0.0, 0.0], eInt := PyArr.ofList [0]
          stress := PyArr.ofList [0, 0, 0, 0, 0, 0, 0], hist := PyArr.ofList (d.map HistEntry.init)
          tkelv := PyArr.ofNumber 300 }

end Ecm
