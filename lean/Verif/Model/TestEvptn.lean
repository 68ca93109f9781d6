/-
  Model of test/test_evptn.cxx, TEST(ecmech, evptn_a), and of test/test_updst.cxx, TEST(ecmech, updst_a): one step of one
  crystal, in three ways.  The first test builds the equations of the step by hand and has them solved; then it calls
  getResponseSngl with a tangent.  The second test makes the step by a call of getResponseECM without tangent.

  The material and the initial hardening state of the first test are parameters here.  Arrays that are not initialised
  (`tkelv`, `sdd`, `mtanSD`) are arbitrary inputs, and so is the number `rho` that the solver reports.  The printed lines and
  the debug output are left out.
-/
import Verif.Model.TestUpdst

namespace Ecm
open Classical

variable {n nH : ℕ}

/-- test/setup_conditions.h:1-4 -/
noncomputable def evpRates : Vec 7 := fun i => sqr2b3 * (![-0.5, -0.5, 1, 0, 0, 0, 0] : Vec 7) i

/-- test/setup_conditions.h:1-13 -/
noncomputable def evpInp (tol : ℝ) : Inputs := ⟨1e-1, tol, evpRates, ![0, 0, 0.5], ![1, 1, 0, 0]⟩

/-- test_evptn.cxx:82, 94-103: the equations built by hand from the hardening state `h0` -/
noncomputable def evpProblem (M : Material n nH) (h0 : Vec nH) : Out (Updst n) :=
  Updst.make M.geom M.kin M.el 1e-1 1 0 0 300 h0 0 ![1, 0, 0, 0] (svecToVecd evpRates) ![0, 0, 0.5]

/-- test_evptn.cxx:105-121, 130: the solution and the slip rates of the last evaluation -/
noncomputable def evpFirst (X : Ext) (M : Material n nH) (h0 : Vec nH) (tol : ℝ) : Out (SolveResult 8 × Vec n) :=
  Out.bind (evpProblem M h0) fun P =>
    let r := X.solver P.problem tol 100 (fun _ => 0)
    if r.converged = false then .fail "Solver failed to converge!" else .ok (r, P.gdot r.xLast)

/-- test_evptn.cxx:145-158: energy, stress and history are zero except for orientation and hardening state -/
def evpMem (h0 : Vec nH) (tk : ℝ) (sd : Vec 2) (mt : Mat 6 6) : Mem nH n where
  eInt := 0
  stress := 0
  hist := fun k =>
    if k.val = 9 then 1 else if h : 13 ≤ k.val ∧ k.val < 13 + nH then h0 ⟨k.val - 13, by omega⟩ else 0
  tkelv := tk
  sdd := sd
  mtan := some mt

/-- test_evptn.cxx:82-166: both parts -/
noncomputable def evpRun (X : Ext) (M : Material n nH) (h0 : Vec nH) (tol tk : ℝ) (sd : Vec 2) (mt : Mat 6 6) :
    Out (SolveResult 8 × Vec n × Mem nH n) :=
  Out.bind (evpFirst X M h0 tol) fun f =>
    match getResponseSngl X M (evpInp tol) (evpMem h0 tk sd mt) with
    | .ok m => .ok (f.1, f.2, m)
    | .fail s _ => .fail s
    | .undef w => .undef w

/-- test/test_expectedVals.h: number of evaluations, slip rate, lattice strain, first component of the quaternion -/
structure EvpExpected where
  evals : ℕ
  rate : ℝ
  strain : ℝ
  quat : ℝ

/-- test/test_expectedVals.h:30-33 -/
noncomputable def evpExpect0 : EvpExpected := ⟨18, 0.2475346625929, 0.0009861349707681, 0.999687516276⟩

/-- test/test_expectedVals.h:17-20 -/
noncomputable def evpExpect1 : EvpExpected := ⟨23, 0.2398180885495, 0.00407276458021, 0.999687516276⟩

/-- test/test_expectedVals.h:10-13 -/
noncomputable def evpExpect2 : EvpExpected := ⟨16, 0.15704792600045, 0.0067661223196391, 0.9996875162757⟩

/-- test/test_expectedVals.h:3-6 -/
noncomputable def evpExpect3 : EvpExpected := ⟨9, 0.24401180817524, 0.0023952767304669, 0.9996875162757⟩

/-- test_evptn.cxx:128-134, 167, 177-183: the checks, for the slip system `s`.  The conversion to `int` in line 167 is
    that of a number that is not negative. -/
def EvpPasses (ex : EvpExpected) (s : Fin n) (rho : ℝ) (o : SolveResult 8 × Vec n × Mem nH n) : Prop :=
  o.1.nFEvals = ex.evals ∧ |o.2.1 s - ex.rate| < 1e-8 ∧ rho - 1 < 1e-3 ∧
  ⌊(Hist.ofArray o.2.2.hist).nFEval⌋ = (ex.evals : ℤ) + 1 ∧ |(Hist.ofArray o.2.2.hist).e 1 - ex.strain| < 1e-10 ∧
  |(Hist.ofArray o.2.2.hist).q 0 - ex.quat| < 1e-8 ∧ |(Hist.ofArray o.2.2.hist).gdot s - ex.rate| < 1e-8

/-- test_updst.cxx:43-118: the object, the arrays and the call; without NON_I_QUAT.  `tk` and `sd` are what the arrays of
    lines 110-111 hold at the beginning. -/
noncomputable def updOne (c : Case) (S : Solver 1) (pars : List ℝ) (X : Ext) (tk : ℝ) (sd : Vec 2) : Out BatchMem :=
  match (MM.new c.type (Strides.default c.type.numHist)).initFromParams S [] pars [] with
  | (m, .ok ()) =>
    Out.bind m.setComplete fun m => Out.bind m.getHistInfo fun d =>
      match m.getResponse X ⟨1e-1, 0, vecBuf evpRates, vecBuf ![0, 0, 0.5], vecBuf ![1, 1, 0, 0]⟩ 1
        ⟨constBuf 1 0, constBuf 7 0, updHistBuf d false, constBuf 1 tk, vecBuf sd, none⟩ with
      | .ok b => .ok b
      | .fail s _ => .fail s
      | .undef w => .undef w
  | (_, .fail s) => .fail s
  | (_, .undef w) => .undef w

/-- test_updst.cxx:129-135: the checks; `iHistA_nFEval` is 3, `iHistLbE` is 4, `iHistLbQ` is 9, and the slip rates begin
    after the hardening variables -/
def UpdOnePasses (ex : EvpExpected) (c : Case) (b : BatchMem) : Prop :=
  b.hist.val 3 = ex.evals ∧ |b.hist.val (4 + 1) - ex.strain| < 1e-10 ∧ |b.hist.val 9 - ex.quat| < 1e-8 ∧
  |b.hist.val (13 + c.type.nH + 1) - ex.rate| < 1e-8

end Ecm
