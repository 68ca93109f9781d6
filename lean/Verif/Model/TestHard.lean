/-
  Model of test/test_hardening.cxx and test/test_aniso_hardening.cxx: one update of the hardening state.

  The printed lines are left out.  `S` is the solver of the hardening equations.
-/
import Verif.Model.AnisoVoce

namespace Ecm

/-- test/test_hardening.cxx:22, 63, 101; test/test_aniso_hardening.cxx:22, 66: the initialiser of the array sets its first
    entry, the others are zero -/
noncomputable def hardRates : Vec 12 := fun i => if i.val = 0 then 1 / 12 else 0

/-- test/setup_kin_VocePL.h:8-11, 23-27, 41-45 and, for `ns`, setup_kin_VocePL_NS.h with the same lines -/
noncomputable def hardVocePars (nl ns : Bool) : List ℝ :=
  [1, 0.01, 1, 200e-5, 100e-5, if ns then 100e-5 else 400e-5] ++ (if nl then [2] else [])
    ++ [if ns then 0 else 0.05, 1e-6, 100e-5]

/-- test/setup_kin_VocePL.h:8-21, 31-39 and, for `ns`, setup_kin_VocePL_NS.h with the same lines -/
noncomputable def hardAnisoPars (nl ns : Bool) : List ℝ :=
  [1, 0.01, 1, 200e-5] ++ List.replicate 12 100e-5 ++ [if ns then 100e-5 else 400e-5] ++ (if nl then [2] else [])
    ++ [if ns then 0 else 0.05, 1e-6, 100e-5]

/-- test/setup_kin_KMBalD_FFF.h:2-25 -/
noncomputable def hardKMPars : List ℝ := [1, 300, 20000, 0.004, 0.28, 1.34, 20, 1e3, 0.02, 10e-5, 5e-5, 100, 10, 0.05, 1e-6, 0.25]

/-- test/test_hardening.cxx:24-40, 65-81: the tests with the Voce law -/
noncomputable def hardVoce (nl ns : Bool) (S : Solver 1) : Out (Vec 1 × ℕ) :=
  Out.bind (Voce.setParams nl (hardVocePars nl ns)) fun k =>
    k.updateH S (fun i => (k.histInfo.map HistEntry.init).getD i.val 0) 1e-1 hardRates

/-- test/test_hardening.cxx:103-115: the test with the dislocation density -/
noncomputable def hardKM (S : Solver 1) : Out (Vec 1 × ℕ) :=
  Out.bind (KMBalD.setParams false false false false 1 hardKMPars) fun k =>
    k.updateH S (fun i => (k.histInfo.map HistEntry.init).getD i.val 0) 1e-1 hardRates

/-- test/test_aniso_hardening.cxx:24-43, 68-87: all strengths begin with the one entry that getHistInfo describes -/
noncomputable def hardAniso (nl ns : Bool) (S : Solver 12) : Out (Vec 12 × ℕ) :=
  Out.bind (AnisoVoce.setParams nl 12 (hardAnisoPars nl ns)) fun k =>
    k.updateH S (fun _ => (k.histInfo.map HistEntry.init).getD 0 0) 1e-1 hardRates

/-- test/test_hardening.cxx:42-46, 51, 83, 88, 117, 122; test/test_aniso_hardening.cxx:45-49, 54, 89, 94: number of
    evaluations, and one entry `i` against a value with a tolerance -/
def HardPasses {n : ℕ} (i : Fin n) (evals : ℕ) (val tol : ℝ) (o : Vec n × ℕ) : Prop := o.2 = evals ∧ |o.1 i - val| < tol

/-- test/test_hardening.cxx:13-17, 58; test/test_aniso_hardening.cxx:13-17, 61 -/
noncomputable def hardVal (nl ns : Bool) : ℝ := if ns then 0.001 else if nl then 0.001016575445448 else 0.001016620868315

/-- test/test_hardening.cxx:18, 59; test/test_aniso_hardening.cxx:18, 62 -/
noncomputable def hardTol (ns : Bool) : ℝ := if ns then 1e-15 else 1e-11

/-- test/test_hardening.cxx:42-46, 83; test/test_aniso_hardening.cxx:45-49, 89 -/
def hardEvals (nl ns : Bool) : ℕ := if ns then 2 else if nl then 3 else 2

/-- test/test_hardening.cxx:96 -/
noncomputable def hardKMVal : ℝ := 0.6633659171982

end Ecm
