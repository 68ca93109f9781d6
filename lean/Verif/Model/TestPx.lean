/-
  Model of test/test_px.cxx: sixteen crystals of one material, each in its own orientation, pulled through a hundred
  steps by calls of getResponseECM.

  The numbers of crystals and steps (`nPassed`, `nStep`, which "can" be changed, test_px.cxx:20-23) are parameters here.
  The four numbers drawn for each orientation (test_px.cxx:90-93) are arbitrary inputs.  The arrays for the temperature and
  the moduli are not initialised (test_px.cxx:122-123); their contents are arbitrary inputs, too.  The output level and the
  printed headings are left out.
-/
import Verif.Model.Batch
import Verif.Model.Wrap
import Verif.Model.Util

namespace Ecm
open Classical

/-- test/setup_base.h:7-8, setup_elastn.h:2, setup_kin_VocePL.h:8-9 (with XM_VAL of line 4 and the order of lines 43-47),
    setup_eos.h:7-8; stacked in the order of test_px.cxx:42, 51-53.  Of the parameters of the equation of state the last two
    are passed (setup_eos.h:11-14) -/
noncomputable def pxParsVoce : List ℝ :=
  [3, 2e-5, 1e-10, 3, 1, 1, 1, 0.01, 1, 200e-5, 100e-5, 400e-5, 0.05, 1e-6, 100e-5, 1.7, -(2e-5) * 300]

/-- test/setup_base.h:7-8, setup_elastn.h:2, setup_kin_KMBalD_FFF.h:2-25, setup_eos.h:7-8; stacked in the order of
    test_px.cxx:42, 45-47 -/
noncomputable def pxParsKM : List ℝ :=
  [3, 2e-5, 1e-10, 3, 1, 1, 1, 300, 20000, 0.004, 0.28, 1.34, 20, 1e3, 0.02, 10e-5, 5e-5, 100, 10, 0.05, 1e-6, 0.25, 1.7,
    -(2e-5) * 300]

/-- test_px.cxx:98 -/
noncomputable def pxRelRate : ℝ := 1e-6

/-- test_px.cxx:99 -/
noncomputable def pxDt : ℝ := 0.002 / pxRelRate

/-- test_px.cxx:101-103 -/
noncomputable def pxRates : Vec 7 := ![-0.5 * pxRelRate, -0.5 * pxRelRate, 1 * pxRelRate, 0, 0, 0, 0]

/-- test_px.cxx:104-108: the rates of all crystals -/
noncomputable def pxRateBuf (N : ℕ) : Buf where
  len := 7 * N
  val := fun a => pxRates ⟨a % 7, Nat.mod_lt _ (by norm_num)⟩

/-- an array of `l` equal numbers (test_px.cxx:110, 113, 116, 119) -/
def constBuf (l : ℕ) (x : ℝ) : Buf where
  len := l
  val := fun _ => x

/-- test_px.cxx:79-96: the initial values, with the orientation of each crystal; `iHistLbQ` is 9 -/
noncomputable def pxHistBuf (nHist N : ℕ) (d : List HistEntry) (q : ℕ → Vec 4) : Buf where
  len := nHist * N
  val := fun a =>
    if h : 9 ≤ a % nHist ∧ a % nHist < 13 then vecsVNormalize (q (a / nHist)) ⟨a % nHist - 9, by omega⟩
    else (d.getD (a % nHist) ⟨"", 0, false, false⟩).init

/-- test_px.cxx:136-142: the volume ratios of crystal `i` for the next step -/
noncomputable def pxVolPoint (d : Buf) (i : ℕ) (vol : Buf) : Out Buf :=
  let v0 := vol.val (4 * i + 1)
  let v1 := v0 * Real.exp (d.val (7 * i + 6) * pxDt)
  let v3 := v1 - v0
  if pxDt * 0.5 * (v0 + v1) = 0 then .undef "division by zero"
  else .ok (vol.put (4 * i) ![v0, v1, v3 / (pxDt * 0.5 * (v0 + v1)), v3])

/-- test_px.cxx:135-143: the loop over the crystals -/
noncomputable def pxVols (d : Buf) : List ℕ → Buf → Out Buf
  | [], vol => .ok vol
  | i :: l, vol => Out.bind (pxVolPoint d i vol) (pxVols d l)

/-- test_px.cxx:150-153 with the weight of line 25 -/
noncomputable def pxMean (N : ℕ) (stress : Buf) : ℝ :=
  (List.range N).foldl (fun s i => s + 1 / N * stress.val (i * 7 + 2)) 0

/-- test_px.cxx:129-158: the loop over the steps, from the time `t` on; what is printed are pairs of time and mean axial
    stress.  The tolerance is a member of the object, so that the one in `BatchIn` is not used. -/
noncomputable def pxLoop {T : MType} (X : Ext) (m : MM T) (N : ℕ) : ℕ → ℝ → Buf → BatchMem → Out (List (ℝ × ℝ))
  | 0, _, _, _ => .ok []
  | k + 1, t, vol, b =>
    Out.bind (pxVols (pxRateBuf N) (List.range N) vol) fun vol' =>
      match m.getResponse X ⟨pxDt, 0, pxRateBuf N, constBuf (3 * N) 0, vol'⟩ N b with
      | .ok b' => Out.bind (pxLoop X m N k (t + pxDt) vol' b') fun r => .ok ((t + pxDt, pxMean N b'.stress) :: r)
      | .fail s _ => .fail s
      | .undef w => .undef w

/-- test_px.cxx:61-158: the object, the arrays and the loop.  `tk` and `sd` are what the arrays of lines 122-123 hold at the
    beginning.  No crystals make an array without elements (line 79); a zero quaternion makes vecsVNormalize divide by zero. -/
noncomputable def pxRun (c : Case) (S : Solver 1) (pars : List ℝ) (X : Ext) (N K : ℕ) (q : ℕ → Vec 4) (tk sd : ℕ → ℝ) :
    Out (List (ℝ × ℝ)) :=
  match (MM.new c.type (Strides.default c.type.numHist)).initFromParams S [] pars [] with
  | (m, .ok ()) =>
    Out.bind m.setComplete fun m => Out.bind m.getHistInfo fun d =>
      if N = 0 then .undef "array without elements"
      else if ∃ i < N, q i = 0 then .undef "division by zero"
      else pxLoop X m N K 0 (constBuf (4 * N) 1)
        ⟨constBuf N 0, constBuf (7 * N) 0, pxHistBuf c.type.numHist N d q, ⟨N, tk⟩, ⟨2 * N, sd⟩, none⟩
  | (_, .fail s) => .fail s
  | (_, .undef w) => .undef w

/-- test_px.cxx:160-164: what the test expects of the mean stress of the last step, which is zero when there was none
    (line 128) -/
def PxPasses (expected : ℝ) (out : List (ℝ × ℝ)) : Prop :=
  |(out.getLastD (0, 0)).2 - expected| < 1e-10

/-- test_px.cxx:32-54, 163: the test with KIN_TYPE 0 -/
noncomputable def pxVoce (S : Solver 1) (X : Ext) (q : ℕ → Vec 4) (tk sd : ℕ → ℝ) : Out (List (ℝ × ℝ)) :=
  pxRun .fccA S pxParsVoce X 16 100 q tk sd

/-- test_px.cxx:32-54, 161: the test with KIN_TYPE 1 -/
noncomputable def pxKM (S : Solver 1) (X : Ext) (q : ℕ → Vec 4) (tk sd : ℕ → ℝ) : Out (List (ℝ × ℝ)) :=
  pxRun .fccB S pxParsKM X 16 100 q tk sd

end Ecm
