/-
  Model of the main program of the example driver, miniapp/orientation_evolution.cxx, on flat arrays:
  reading of the input files, choice and initialisation of the model, allocation, the time loop over all
  points and the averages that are printed.

  Simplifications: files are lists of lines; extraction of numbers from a line by a string stream and the
  random numbers are arbitrary functions; the sequential loops are modelled (the OpenMP and GPU loops have the
  same bodies); memory is one address space.  Reductions are exact sums.
-/
import Verif.Model.Miniapp
import Verif.Model.Wrap

namespace Ecm
open Classical

/-! ### Input -/

/-- what string streams extract from a line: `iss >> tmp_str >> quat_nrand`
    (orientation_evolution.cxx:193), `iss >> q1 >> q2 >> q3 >> q4` (234), `iss >> prop` (258); `none` when the
    extraction fails.  The number of orientations is an unsigned int (183); a larger number makes the extraction fail. -/
structure Reader where
  header : String → Option (String × { k : ℕ // k < 2 ^ 32 })
  quat : String → Option (Vec 4)
  prop : String → Option ℝ

/-- orientation_evolution.cxx:154-176: the four lines of the option file (orientations, model, parameters,
    device).  A file that cannot be opened has no lines. -/
def drvOptions : List String → Out (String × String × String × String)
  | ori :: model :: props :: device :: _ => .ok (ori, model, props, device)
  | _ => .fail "Option file could not be correctly parsed."

/-- orientation_evolution.cxx:45, 183, 203: conversion of an unsigned int to int, modulo 2^32 -/
def drvToInt (k : ℕ) : ℤ := if k < 2 ^ 31 then (k : ℤ) else (k : ℤ) - 2 ^ 32

/-- orientation_evolution.cxx:206-226: `m` random quaternions from the sequence `u` of random numbers, normalised
    (`undef` for the zero vector) -/
noncomputable def randQuats (u : ℕ → ℝ) : ℕ → Out (List ℝ)
  | 0 => .ok []
  | m + 1 => (randQuats u m).bind fun l =>
    let q : Vec 4 := ![u (4 * m), u (4 * m + 1), u (4 * m + 2), u (4 * m + 3)]
    if vecNorm q = 0 then .undef "normalisation of a zero vector"
    else .ok (l ++ List.ofFn (vecsVNormalize q))

/-- orientation_evolution.cxx:227-241: quaternions read from the remaining lines, as they are -/
def dataQuats (R : Reader) : List String → Out (List ℝ)
  | [] => .ok []
  | s :: l =>
    match R.quat s with
    | none => .fail "Quat file has malformed line"
    | some q => (dataQuats R l).bind fun r => .ok (List.ofFn q ++ r)

/-- orientation_evolution.cxx:179-242: the number of points and the quaternions; `undef` when the number of lines
    leaves the range of int -/
noncomputable def drvQuats (R : Reader) (u : ℕ → ℝ) (lines : List String) : Out (ℤ × List ℝ) :=
  match R.header (lines.headD "") with
  | none => .fail "Quat file starting line"
  | some (word, k) =>
    if word = "#random" then (randQuats u k.val).bind fun l => .ok (drvToInt k.val, l)
    else if 2 ^ 31 ≤ lines.tail.length then .undef "int overflow"
    else (dataQuats R lines.tail).bind fun l => .ok (((lines.tail.length : ℕ) : ℤ), l)

/-- orientation_evolution.cxx:245-265: the parameters, one per line -/
def drvProps (R : Reader) : List String → Out (List ℝ)
  | [] => .ok []
  | s :: l =>
    match R.prop s with
    | none => .fail "Material prop file has a malformed line"
    | some p => (drvProps R l).bind fun r => .ok (p :: r)

/-- ECMech_const.h:73: ExecutionStrategy -/
inductive Strategy
  | cpu | openmp | gpu
deriving DecidableEq

/-- orientation_evolution.cxx:274-291: the device; `omp` and `gpu` tell what RAJA was built with -/
def drvDevice (omp gpu : Bool) (s : String) : Out Strategy :=
  if s = "CPU" then .ok .cpu
  else if omp = true ∧ s = "OpenMP" then .ok .openmp
  else if gpu = true ∧ s = "GPU" then .ok .gpu
  else .fail "Accelerator is not supported or RAJA was not built with"

/-- orientation_evolution.cxx:305, 327, 349-352: the model for the word in the option file -/
def drvCase (s : String) : Out Case :=
  if s = "voce" then .ok .fccA else if s = "mts" then .ok .fccB
  else .fail "material model must be either voce or mts "

/-- orientation_evolution.cxx:324, 346: the execution strategy of the model that is used.  In the second branch the
    strategy is set on `mat_modela`, so that `mat_modelb` keeps the one of the constructor
    (ECMech_matModelBase.h:38). -/
def drvModelStrategy (c : Case) (device : Strategy) : Strategy :=
  match c with
  | .fccA => device
  | _ => .cpu

/-- orientation_evolution.cxx:55-56: number of state variables per point -/
def drvNsv (T : MType) : ℕ := T.numHist + 1 + 1

/-- orientation_evolution.cxx:62-78, 94, 113-115: the strides handed to the constructors -/
def drvStrides (T : MType) : List ℕ := [7, 3, 4, 1, 7, drvNsv T, 1, 2]

/-- orientation_evolution.cxx:94, 115, 305-325 or 327-348: the model with its strides, initialised with the
    parameters and complete.  A failure is an exception that ends the program. -/
noncomputable def drvModel (T : MType) (S : Solver 1) (pars : List ℝ) : Out (MM T) :=
  (Strides.ctor T.numHist (drvStrides T) 8).bind fun st =>
  if pars.length ≠ T.nParams then .fail "Material prop file should have another number of properties"
  else
    match (MM.new T st).initFromParams S [] pars [] with
    | (_, .undef w) => .undef w
    | (_, .fail s) => .fail s
    | (m, .ok _) => m.setComplete

/-! ### Memory -/

/-- the arrays of the program (orientation_evolution.cxx:358-359, 371-385) -/
structure DrvMem where
  state : Buf
  vgrad : Buf
  stress : Buf
  ddsdde : Buf
  engInt : Buf
  wVec : Buf
  volRatio : Buf
  stressP : Buf
  dRate : Buf
  temp : Buf
  sdd : Buf

/-- setup_kernels.cxx:430-459: setup_vgrad -/
noncomputable def vgradAll (b : Buf) : ℕ → Buf
  | 0 => b
  | i + 1 => (vgradAll b i).put (9 * i) fun k : Fin 9 =>
    driverL ⟨k.val % 3, by omega⟩ ⟨k.val / 3, by omega⟩

/-- orientation_evolution.cxx:358-385: allocation and initialisation.  `g` gives the contents of fresh memory
    (number of the array, position).  `undef` when a length leaves the range of int. -/
noncomputable def drvAlloc (T : MType) (mm : MM T) (N : ℤ) (quats : List ℝ) (g : ℕ → ℕ → ℝ) : Out DrvMem :=
  if N < 0 ∨ 2 ^ 31 ≤ drvNsv T * N.toNat ∨ 2 ^ 31 ≤ 36 * N.toNat then .undef "length of an array"
  else
    mm.getHistInfo.bind fun info =>
    let N := N.toNat
    let raw := initData (fun k => quats.getD k 0) (fun k => (info.map HistEntry.init).getD k 0) N T.nH
      (13 + T.nH) T.nslip (drvNsv T) fun _ => none
    .ok
      { state := ⟨drvNsv T * N, fun a => (raw a).getD (g 0 a)⟩
        vgrad := vgradAll ⟨9 * N, g 1⟩ N
        stress := ⟨6 * N, fun _ => 0⟩
        ddsdde := ⟨36 * N, g 2⟩
        engInt := ⟨N, g 3⟩
        wVec := ⟨3 * N, g 4⟩
        volRatio := ⟨4 * N, g 5⟩
        stressP := ⟨7 * N, g 6⟩
        dRate := ⟨7 * N, g 7⟩
        temp := ⟨N, g 8⟩
        sdd := ⟨2 * N, g 9⟩ }

/-! ### The kernels over all points -/

/-- `for (int i = 0; i < N; i++)` -/
def outLoop {α : Type} (f : ℕ → α → Out α) : ℕ → α → Out α
  | 0, a => .ok a
  | i + 1, a => (outLoop f i a).bind (f i)

/-- what setup_data and retrieve_data need for point `i`: offsets within int and windows within the arrays
    (setup_kernels.cxx:91-101, retrieve_kernels.cxx:18-28) -/
structure DrvInside (nsv i : ℕ) (m : DrvMem) : Prop where
  two : 2 ≤ nsv
  offState : nsv * i < 2 ^ 31
  offTan : 36 * i < 2 ^ 31
  state : nsv * i + nsv ≤ m.state.len
  vgrad : 9 * i + 9 ≤ m.vgrad.len
  stress : 6 * i + 6 ≤ m.stress.len
  ddsdde : 36 * i + 36 ≤ m.ddsdde.len
  engInt : i + 1 ≤ m.engInt.len
  wVec : 3 * i + 3 ≤ m.wVec.len
  volRatio : 4 * i + 4 ≤ m.volRatio.len
  stressP : 7 * i + 7 ≤ m.stressP.len
  dRate : 7 * i + 7 ≤ m.dRate.len
  temp : i + 1 ≤ m.temp.len

/-- the velocity gradient of a point in the array (setup_kernels.cxx:80-83) -/
def vgradOf (b : Buf) (i : ℕ) : Mat 3 3 := fun r c => b.val (vgradPos r c i)

/-- setup_kernels.cxx:88-146: the body of setup_data_cpu for point `i`, with the indices of lines 75-76 -/
noncomputable def setupPoint (dt : ℝ) (nsv i : ℕ) (m : DrvMem) : Out DrvMem :=
  if DrvInside nsv i m then
    (drvSetup dt (vgradOf m.vgrad i) (m.stress.win (6 * i) 6) (m.state.val (nsv * i + (nsv - 1 - 1)))
      (m.state.val (nsv * i + (nsv - 1)))).bind fun a => .ok
      { m with
        temp := m.temp.put (k := 1) i fun _ => a.temp
        ddsdde := m.ddsdde.put (36 * i) (winOfMat a.mtan)
        engInt := m.engInt.put (k := 1) i fun _ => a.eng
        wVec := m.wVec.put (3 * i) a.w
        dRate := m.dRate.put (7 * i) a.d
        volRatio := m.volRatio.put (4 * i) a.vr
        stressP := m.stressP.put (7 * i) a.stress }
  else .undef "index overflow or access outside an array"

/-- retrieve_kernels.cxx:16-40: the body of retrieve_data_cpu for point `i` -/
noncomputable def retrievePoint (nsv i : ℕ) (m : DrvMem) : Out DrvMem :=
  if DrvInside nsv i m then
    .ok { m with
          state := (m.state.put (k := 1) (nsv * i + (nsv - 1 - 1)) fun _ => m.volRatio.val (4 * i + 1)).put (k := 1)
            (nsv * i + (nsv - 1)) fun _ => m.engInt.val i
          stress := m.stress.put (6 * i) (drvRetrieve (m.stressP.win (7 * i) 7)) }
  else .undef "index overflow or access outside an array"

/-- material_kernels.cxx:6-15: the arguments of getResponseECM, read-only ones (the tolerance is that of the model) -/
def DrvMem.batchIn (m : DrvMem) (dt : ℝ) : BatchIn :=
  { dt := dt, tol := 0, defRate := m.dRate, spin := m.wVec, volRatio := m.volRatio }

/-- material_kernels.cxx:6-15: the arguments of getResponseECM, read-write ones -/
def DrvMem.batchMem (m : DrvMem) : BatchMem :=
  { eInt := m.engInt, stress := m.stressP, hist := m.state, tkelv := m.temp, sdd := m.sdd, mtan := some m.ddsdde }

/-- the arrays after getResponseECM -/
def DrvMem.withBatch (m : DrvMem) (b : BatchMem) : DrvMem :=
  { m with engInt := b.eInt, stressP := b.stress, state := b.hist, temp := b.tkelv, sdd := b.sdd
           ddsdde := b.mtan.getD m.ddsdde }

/-- orientation_evolution.cxx:436-450: one time step on the arrays -/
noncomputable def drvStepAll {T : MType} (X : Ext) (mm : MM T) (dt : ℝ) (nsv N : ℕ) (m : DrvMem) : Res DrvMem :=
  match outLoop (setupPoint dt nsv) N m with
  | .undef w => .undef w
  | .fail e => .fail e m
  | .ok m1 =>
    match mm.getResponse X (m1.batchIn dt) N m1.batchMem with
    | .undef w => .undef w
    | .fail e b => .fail e (m1.withBatch b)
    | .ok b =>
      match outLoop (retrievePoint nsv) N (m1.withBatch b) with
      | .undef w => .undef w
      | .fail e => .fail e (m1.withBatch b)
      | .ok m2 => .ok m2

/-- orientation_evolution.cxx:428, 468-475: the average stress -/
noncomputable def drvAvg (N : ℕ) (m : DrvMem) : Vec 6 := fun j =>
  (List.range N).foldl (fun sum i => sum + 1 / (N : ℝ) * m.stress.val (6 * i + j)) 0

/-- orientation_evolution.cxx:455-467 (compiled when NEVALS_COUNTS is set): minimum, mean and maximum of what is
    taken to be the number of evaluations, slot 2 of the state variables -/
noncomputable def drvEvals (nsv N : ℕ) (m : DrvMem) : ℝ × ℝ × ℝ :=
  ((List.range N).foldl (fun s i => min s (m.state.val (nsv * i + 2))) 100,
    (List.range N).foldl (fun s i => s + 1 / (N : ℝ) * m.state.val (nsv * i + 2)) 0,
    (List.range N).foldl (fun s i => max s (m.state.val (nsv * i + 2))) 0)

/-- orientation_evolution.cxx:436-549: `k` time steps; the second component collects the printed averages -/
noncomputable def drvLoop {T : MType} (X : Ext) (mm : MM T) (dt : ℝ) (nsv N : ℕ) :
    ℕ → DrvMem → List (Vec 6) → Res (DrvMem × List (Vec 6))
  | 0, m, out => .ok (m, out)
  | k + 1, m, out =>
    match drvStepAll X mm dt nsv N m with
    | .undef w => .undef w
    | .fail e m' => .fail e (m', out)
    | .ok m' => drvLoop X mm dt nsv N k m' (out ++ [drvAvg N m'])

/-- orientation_evolution.cxx:35: time step -/
noncomputable def drvDt : ℝ := 0.00025
/-- orientation_evolution.cxx:36: number of steps -/
def drvSteps : ℕ := 60

/-- everything the program has before the time loop -/
structure DrvReady (T : MType) where
  mm : MM T
  N : ℕ
  mem : DrvMem
  kernels : Strategy
  model : Strategy

/-- orientation_evolution.cxx:152-367: from the files to initialised arrays -/
noncomputable def drvPrepare (R : Reader) (u : ℕ → ℝ) (omp gpu : Bool) (S : Solver 1) (g : ℕ → ℕ → ℝ)
    (files : String → List String) (optionFile : String) : Out (Σ c : Case, DrvReady c.type) :=
  (drvOptions (files optionFile)).bind fun o =>
  (drvQuats R u (files o.1)).bind fun q =>
  (drvProps R (files o.2.2.1)).bind fun pars =>
  (drvDevice omp gpu o.2.2.2).bind fun device =>
  (drvCase o.2.1).bind fun c =>
  (drvModel c.type S pars).bind fun mm =>
  (drvAlloc c.type mm q.1 q.2 g).bind fun m =>
  .ok ⟨c, { mm := mm, N := q.1.toNat, mem := m, kernels := device, model := drvModelStrategy c device }⟩

/-- orientation_evolution.cxx: the whole program; the printed averages, also of the steps before a failure -/
noncomputable def drvMain (R : Reader) (u : ℕ → ℝ) (omp gpu : Bool) (S : Solver 1) (X : Ext) (g : ℕ → ℕ → ℝ)
    (files : String → List String) (optionFile : String) : Res (List (Vec 6)) :=
  match drvPrepare R u omp gpu S g files optionFile with
  | .undef w => .undef w
  | .fail e => .fail e []
  | .ok ⟨c, r⟩ =>
    match drvLoop X r.mm drvDt (drvNsv c.type) r.N drvSteps r.mem [] with
    | .undef w => .undef w
    | .fail e p => .fail e p.2
    | .ok p => .ok p.2

end Ecm
