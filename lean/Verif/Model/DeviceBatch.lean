/-
  Model of getResponseECM (src/ecmech/ECMech_evptnWrap.h:286-388) with its execution strategies.

  The three loops have the same body.  On the device ECMECH_FAIL prints and the point goes on (Model/Device); on the host it
  throws (ECMech_port.h:27).  RAJA::forall runs the points of a parallel loop in an unknown order, which is an argument
  here; interleavings within the bodies are the subject of Model/Parallel.  The messages are listed point by point; on a
  device they can be interleaved.
-/
import Verif.Model.Batch
import Verif.Model.Device
import Verif.Model.Driver

namespace Ecm
open Classical

/-- the body of the device loop for point `i` (ECMech_evptnWrap.h:348-362): arrays and messages -/
noncomputable def batchPointDev {n nH : ℕ} (X : DevExt) (M : DevMaterial n nH) (st : Strides) (a : BatchIn)
    (i : ℕ) (b : BatchMem) : Out (BatchMem × List String) :=
  if Safe (numHist nH n) st a b i then
    (getResponseSnglDev X M (batchInp st a i) (batchMem st b i)).bind fun r => .ok (b.store st i r.1, r.2)
  else .undef "index overflow or access outside an array"

/-- the device loop over the points in a given order (ECMech_evptnWrap.h:343) -/
noncomputable def batchLoopDev {n nH : ℕ} (X : DevExt) (M : DevMaterial n nH) (st : Strides) (a : BatchIn) :
    List ℕ → BatchMem → Out (BatchMem × List String)
  | [], b => .ok (b, [])
  | i :: l, b =>
    (batchPointDev X M st a i b).bind fun r =>
      (batchLoopDev X M st a l r.1).bind fun q => .ok (q.1, r.2 ++ q.2)

/-- how a call of getResponseECM ends: it returns, with what has been printed; it throws; or its behaviour is not
    defined -/
inductive CallEnd
  | returned (b : BatchMem) (printed : List String)
  | thrown (msg : String) (b : BatchMem)
  | undef (why : String)

/-- which strategies the library has been built with: RAJA_ENABLE_OPENMP, and RAJA_ENABLE_CUDA or RAJA_ENABLE_HIP
    (ECMech_evptnWrap.h:314, 334) -/
structure Built where
  openmp : Bool
  gpu : Bool

/-- the strategy that is carried out: ECMech_evptnWrap.h:313-368, "fall through to CPU if other options are not
    available" -/
def Built.actual (B : Built) : Strategy → Strategy
  | .cpu => .cpu
  | .openmp => if B.openmp then .openmp else .cpu
  | .gpu => if B.gpu then .gpu else .cpu

/-- ECMech_evptnWrap.h:286-388 getResponseECM; `order` is the order of the points in the parallel loops.  An exception
    that leaves an iteration of an OpenMP loop has no defined behaviour (OpenMP: it has to be caught in the region and by
    the thread that threw it). -/
noncomputable def getResponseStrat {n nH : ℕ} (B : Built) (s : Strategy) (X : DevExt) (M : DevMaterial n nH)
    (st : Strides) (complete : Bool) (a : BatchIn) (N : ℕ) (order : List ℕ) (b : BatchMem) : CallEnd :=
  if complete then
    match B.actual s with
    | .cpu =>
      match batchLoop X.host M.host st a (List.range N) b with
      | .ok b' => .returned b' []
      | .fail msg b' => .thrown msg b'
      | .undef w => .undef w
    | .openmp =>
      match batchLoop X.host M.host st a order b with
      | .ok b' => .returned b' []
      | .fail _ _ => .undef "exception leaves an iteration of a parallel loop"
      | .undef w => .undef w
    | .gpu =>
      match batchLoopDev X M st a order b with
      | .ok r => .returned r.1 r.2
      | .fail _ => .undef "not reached on a device"
      | .undef w => .undef w
  else .thrown "not complete" b

end Ecm
