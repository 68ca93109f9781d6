/-
  Model of the memory of the example driver when there is a GPU: where its arrays are allocated, who reads and writes
  them in each phase, what is copied, and how the arrays are given back
  (miniapp/orientation_evolution.cxx, miniapp/miniapp_util.h, src/ecmech/ECMech_evptnWrap.h).

  Simplifications: a memory block is host memory, unified memory or device memory; which processor can reach which kind
  is a property of the machine.  Every kernel has ended before the next statement of the program (RAJA's default).  An
  update that fails ends the program, as on the host (on a device see Model/Device).  Both back ends in one build are
  not considered.
-/
import Verif.Model.Driver

namespace Ecm
open Classical

/-- who executes a loop -/
inductive Proc
  | host | device
deriving DecidableEq

/-- what kind of memory a block is: `new`, `cudaMallocManaged`, `cudaMalloc`/`hipMalloc` (miniapp_util.h:36-56, 80-90) -/
inductive Space
  | host | managed | device
deriving DecidableEq

/-- the GPU back end RAJA was built with: RAJA_ENABLE_CUDA, RAJA_ENABLE_HIP -/
inductive Gpu
  | none | cuda | hip
deriving DecidableEq

/-- how the program was built; `byValue` is ECMECH_NON_CORAL1_MACHINE (CMakeBasics.cmake:39-41, from the option
    ENABLE_CUDA_WORKAROUND, which is off unless asked for: ECMechOptions.cmake:26) -/
structure Build where
  omp : Bool
  gpu : Gpu
  byValue : Bool

/-- is there a GPU back end (orientation_evolution.cxx:282) -/
def Build.hasGpu (B : Build) : Bool := decide (B.gpu ≠ .none)

/-- what the machine allows beyond the guarantees of the interfaces: the device follows host addresses, the host follows
    device addresses, a copy looks at the addresses and not at the direction that is named -/
structure Machine where
  devSeesHost : Bool
  hostSeesDev : Bool
  copyByAddress : Bool

/-- can a processor use an address in this kind of memory -/
def Machine.reach (k : Machine) : Proc → Space → Bool
  | .host, .device => k.hostSeesDev
  | .device, .host => k.devSeesHost
  | _, _ => true

/-- the blocks in use, and the next fresh address -/
structure Heap where
  live : List (ℕ × Space)
  next : ℕ

namespace Heap

/-- nothing allocated -/
def empty : Heap := ⟨[], 0⟩

/-- a fresh block -/
def alloc (h : Heap) (s : Space) : ℕ × Heap := (h.next, ⟨(h.next, s) :: h.live, h.next + 1⟩)

/-- the kind of memory at an address, if it is in use -/
def space (h : Heap) (p : ℕ) : Option Space := h.live.lookup p

/-- can all these blocks be used by this processor -/
def reaches (h : Heap) (k : Machine) (who : Proc) (ps : List ℕ) : Bool :=
  ps.all fun p => match h.space p with
    | none => false
    | some s => k.reach who s

/-- may `hipMemcpy(dst, src, .., hipMemcpyHostToDevice)` be called: the target in device memory, the source in host
    memory, as the direction says, unless the machine goes by addresses (orientation_evolution.cxx:395-397) -/
def canCopy (h : Heap) (k : Machine) (dst src : ℕ) : Bool :=
  decide (h.space dst = some .device) &&
    (decide (h.space src = some .host) || (k.copyByAddress && decide (h.space src ≠ none)))

end Heap

/-- ways to give memory back (miniapp_util.h:58-77, 92-103) -/
inductive Dealloc
  | delete | cudaFree | hipFree
deriving DecidableEq

/-- the kinds of memory each of them takes -/
def Dealloc.accepts : Dealloc → Space → Bool
  | .delete, .host => true
  | .cudaFree, .managed => true
  | .cudaFree, .device => true
  | .hipFree, .device => true
  | _, _ => false

/-- giving one block back; `undef` for an address that is not in use and for the wrong function -/
def Heap.free (h : Heap) (f : Dealloc) (p : ℕ) : Out Heap :=
  match h.space p with
  | none => .undef "block not in use"
  | some s =>
    if f.accepts s = true then .ok { h with live := h.live.filter fun b => decide (b.1 ≠ p) }
    else .undef "block given back by the wrong function"

/-- giving several blocks back -/
def Heap.freeAll (f : Dealloc) : List ℕ → Heap → Out Heap
  | [], h => .ok h
  | p :: l, h => (h.free f p).bind (Heap.freeAll f l)

/-- the addresses of the eleven arrays (orientation_evolution.cxx:39-43, 120-140) -/
structure Ptrs where
  state : ℕ
  vgrad : ℕ
  stress : ℕ
  ddsdde : ℕ
  engInt : ℕ
  wVec : ℕ
  volRatio : ℕ
  stressP : ℕ
  dRate : ℕ
  temp : ℕ
  sdd : ℕ

/-- miniapp_util.h:36-56: the memory that `allocate` gives, for its argument `host` -/
def drvAllocSpace (B : Build) (host : Bool) : Space :=
  if host = true then .host
  else match B.gpu with
    | .cuda => .managed
    | .hip => .device
    | .none => .host

/-- miniapp_util.h:58-77: how `deallocate` gives memory back, for its argument `host` -/
def drvDealloc (B : Build) (host : Bool) : Dealloc :=
  if host = true then .delete
  else match B.gpu with
    | .cuda => .cudaFree
    | .hip => .hipFree
    | .none => .delete

/-- orientation_evolution.cxx:150, 284: the flag `host` -/
def drvHost (device : Strategy) : Bool := decide (device ≠ .gpu)

/-- setup_kernels.cxx:469-496, retrieve_kernels.cxx:138-164, ECMech_evptnWrap.h:313-387: who executes the loops of a
    strategy; without a GPU back end the loops of the CPU are taken -/
def procOf (B : Build) (s : Strategy) : Proc :=
  if s = .gpu ∧ B.gpu ≠ .none then .device else .host

/-- orientation_evolution.cxx:358-385: allocation of the arrays in memory of kind `sp`, and initialisation: init_data
    (setup_kernels.cxx:413-428: the GPU takes the loop of the CPU), setup_vgrad (434-459) and the loop of lines 372-374
    all run on the host.  `busy` tells whether there are points at all; without points no loop touches memory. -/
def spaceInit (k : Machine) (sp : Space) (busy : Bool) (h : Heap) : Out (Ptrs × Heap) :=
  let (pState, h) := h.alloc sp
  let (pVgrad, h) := h.alloc sp
  if (busy && !h.reaches k .host [pState]) = true then .undef "init_data: memory out of reach of the host"
  else if (busy && !h.reaches k .host [pVgrad]) = true then .undef "setup_vgrad: memory out of reach of the host"
  else
    let (pStress, h) := h.alloc sp
    if (busy && !h.reaches k .host [pStress]) = true then .undef "stress: memory out of reach of the host"
    else
      let (pTan, h) := h.alloc sp
      let (pEng, h) := h.alloc sp
      let (pW, h) := h.alloc sp
      let (pVol, h) := h.alloc sp
      let (pStressP, h) := h.alloc sp
      let (pD, h) := h.alloc sp
      let (pTemp, h) := h.alloc sp
      let (pSdd, h) := h.alloc sp
      .ok (⟨pState, pVgrad, pStress, pTan, pEng, pW, pVol, pStressP, pD, pTemp, pSdd⟩, h)

/-- orientation_evolution.cxx:387-424: the arrays the kernels work on.  With HIP on the GPU (`mirror`) they are new
    arrays in device memory, three of them filled by copies (395-397); otherwise they are the arrays of before. -/
def spaceMirror (k : Machine) (mirror busy : Bool) (p : Ptrs) (h : Heap) : Out (Ptrs × Heap) :=
  if mirror = true then
    let (dState, h) := h.alloc .device
    let (dVgrad, h) := h.alloc .device
    let (dStress, h) := h.alloc .device
    if (busy && !(h.canCopy k dState p.state && h.canCopy k dVgrad p.vgrad && h.canCopy k dStress p.stress)) = true then
      .undef "hipMemcpy: direction does not fit the memory"
    else
      let (dTan, h) := h.alloc .device
      let (dEng, h) := h.alloc .device
      let (dW, h) := h.alloc .device
      let (dVol, h) := h.alloc .device
      let (dStressP, h) := h.alloc .device
      let (dD, h) := h.alloc .device
      let (dTemp, h) := h.alloc .device
      let (dSdd, h) := h.alloc .device
      .ok (⟨dState, dVgrad, dStress, dTan, dEng, dW, dVol, dStressP, dD, dTemp, dSdd⟩, h)
  else .ok (p, h)

/-- setup_kernels.cxx:88-146: the arrays setup_data uses are in reach -/
def reachSetup (k : Machine) (B : Build) (kernels : Strategy) (d : Ptrs) (h : Heap) : Bool :=
  h.reaches k (procOf B kernels) [d.vgrad, d.stress, d.state, d.stressP, d.dRate, d.wVec, d.ddsdde, d.volRatio,
    d.engInt, d.temp]

/-- ECMech_evptnWrap.h:313-387: what getResponseECM uses is in reach: the arrays, and the model object, a variable of the main
    program (orientation_evolution.cxx:94, 115).  The loop of the GPU uses copies of its members when
    ECMECH_NON_CORAL1_MACHINE is set or with HIP (344-346); otherwise the capture `[=]` takes the address of the object. -/
def reachModel (k : Machine) (B : Build) (model : Strategy) (d : Ptrs) (h : Heap) : Bool :=
  h.reaches k (procOf B model) [d.dRate, d.wVec, d.volRatio, d.engInt, d.stressP, d.state, d.temp, d.sdd, d.ddsdde] &&
    (B.byValue || decide (B.gpu = .hip) || k.reach (procOf B model) .host)

/-- retrieve_kernels.cxx:16-40: the arrays retrieve_data uses are in reach -/
def reachRetrieve (k : Machine) (B : Build) (kernels : Strategy) (d : Ptrs) (h : Heap) : Bool :=
  h.reaches k (procOf B kernels) [d.stressP, d.volRatio, d.engInt, d.state, d.stress]

/-- orientation_evolution.cxx:451-539: the array the averages are taken of is in reach -/
def reachAverage (k : Machine) (B : Build) (kernels : Strategy) (d : Ptrs) (h : Heap) : Bool :=
  h.reaches k (procOf B kernels) [d.stress]

/-- where the program runs and where its arrays are -/
structure Place where
  k : Machine
  B : Build
  kernels : Strategy
  model : Strategy
  d : Ptrs
  h : Heap
  busy : Bool

/-- orientation_evolution.cxx:436-540: one time step on the arrays and the average, as drvStepAll, with the memory in
    reach at every loop -/
noncomputable def spaceStep {T : MType} (P : Place) (X : Ext) (mm : MM T) (dt : ℝ) (nsv N : ℕ) (m : DrvMem) :
    Res DrvMem :=
  if (P.busy && !reachSetup P.k P.B P.kernels P.d P.h) = true then .undef "setup_data: memory out of reach"
  else
    match outLoop (setupPoint dt nsv) N m with
    | .undef w => .undef w
    | .fail e => .fail e m
    | .ok m1 =>
      if (P.busy && !reachModel P.k P.B P.model P.d P.h) = true then .undef "getResponseECM: memory out of reach"
      else
        match mm.getResponse X (m1.batchIn dt) N m1.batchMem with
        | .undef w => .undef w
        | .fail e b => .fail e (m1.withBatch b)
        | .ok b =>
          if (P.busy && !reachRetrieve P.k P.B P.kernels P.d P.h) = true then .undef "retrieve_data: memory out of reach"
          else
            match outLoop (retrievePoint nsv) N (m1.withBatch b) with
            | .undef w => .undef w
            | .fail e => .fail e (m1.withBatch b)
            | .ok m2 =>
              if (P.busy && !reachAverage P.k P.B P.kernels P.d P.h) = true then .undef "average: memory out of reach"
              else .ok m2

/-- orientation_evolution.cxx:436-549: the time steps -/
noncomputable def spaceLoop {T : MType} (P : Place) (X : Ext) (mm : MM T) (dt : ℝ) (nsv N : ℕ) :
    ℕ → DrvMem → List (Vec 6) → Res (DrvMem × List (Vec 6))
  | 0, m, out => .ok (m, out)
  | j + 1, m, out =>
    match spaceStep P X mm dt nsv N m with
    | .undef w => .undef w
    | .fail e m' => .fail e (m', out)
    | .ok m' => spaceLoop P X mm dt nsv N j m' (out ++ [drvAvg N m'])

/-- orientation_evolution.cxx:562-588: the arrays are given back -/
def spaceFree (f : Dealloc) (mirror : Bool) (p d : Ptrs) (h : Heap) : Out Heap :=
  (h.freeAll f [p.state, p.vgrad, p.stress, p.stressP, p.dRate, p.wVec, p.ddsdde, p.volRatio, p.engInt, p.temp,
    p.sdd]).bind fun h =>
  if mirror = true then
    h.freeAll .hipFree [d.state, d.vgrad, d.stress, d.stressP, d.dRate, d.wVec, d.ddsdde, d.volRatio, d.engInt, d.temp,
      d.sdd]
  else .ok h

/-- the contents of the arrays the kernels work on: after the copies of lines 395-397 the other arrays of the device hold
    whatever their memory held (`gd`) -/
noncomputable def spaceContents (mirror : Bool) (N : ℕ) (gd : ℕ → ℕ → ℝ) (m : DrvMem) : DrvMem :=
  if mirror = true then
    { m with
      ddsdde := ⟨36 * N, gd 2⟩
      engInt := ⟨N, gd 3⟩
      wVec := ⟨3 * N, gd 4⟩
      volRatio := ⟨4 * N, gd 5⟩
      stressP := ⟨7 * N, gd 6⟩
      dRate := ⟨7 * N, gd 7⟩
      temp := ⟨N, gd 8⟩
      sdd := ⟨2 * N, gd 9⟩ }
  else m

/-- orientation_evolution.cxx:356-590: the program from the allocation on, with `allocate` giving memory of kind `sp` and
    `deallocate` calling `f`; the averages and the memory at the end -/
noncomputable def spaceRun {T : MType} (k : Machine) (B : Build) (sp : Space) (f : Dealloc) (kernels model : Strategy)
    (X : Ext) (gd : ℕ → ℕ → ℝ) (mm : MM T) (N : ℕ) (m : DrvMem) : Res (List (Vec 6) × Heap) :=
  let busy := decide (N ≠ 0)
  let mirror := decide (B.gpu = .hip ∧ kernels = .gpu)
  match spaceInit k sp busy .empty with
  | .undef w => .undef w
  | .fail e => .fail e ([], .empty)
  | .ok (p, h) =>
    match spaceMirror k mirror busy p h with
    | .undef w => .undef w
    | .fail e => .fail e ([], h)
    | .ok (d, h) =>
      match spaceLoop ⟨k, B, kernels, model, d, h, busy⟩ X mm drvDt (drvNsv T) N drvSteps (spaceContents mirror N gd m) []
        with
      | .undef w => .undef w
      | .fail e r => .fail e (r.2, h)
      | .ok r =>
        match spaceFree f mirror p d h with
        | .undef w => .undef w
        | .fail e => .fail e (r.2, h)
        | .ok h => .ok (r.2, h)

/-- orientation_evolution.cxx: the whole program in the memory of a machine -/
noncomputable def spaceMain (k : Machine) (B : Build) (R : Reader) (u : ℕ → ℝ) (S : Solver 1) (X : Ext)
    (g gd : ℕ → ℕ → ℝ) (files : String → List String) (optionFile : String) : Res (List (Vec 6) × Heap) :=
  match drvPrepare R u B.omp B.hasGpu S g files optionFile with
  | .undef w => .undef w
  | .fail e => .fail e ([], .empty)
  | .ok ⟨_, r⟩ =>
    spaceRun k B (drvAllocSpace B (drvHost r.kernels)) (drvDealloc B (drvHost r.kernels)) r.kernels r.model X gd r.mm r.N
      r.mem

end Ecm
