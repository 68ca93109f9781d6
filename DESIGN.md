# ExaCMech: design of the formal model

The target is the C++ library in /repo (ExaCMech: crystal-mechanics material models).  The code is
read as text; nothing is compiled or executed.  The model and the proofs are Lean 4 + Mathlib in
`lean/`.  The status of every property, with the exact theorem names, is in `MANIFEST.json`; the
English statements are in `properties.jsonl`; tests of the theorems against wrong programs are in
`seeded/LOG.jsonl`.

## 1. How the code is modelled

* **Numbers.** `double` is modelled by the real numbers.  Rounding (outside Model/Rounding, Model/RotRound, Model/ResidRound and Model/TableRound), overflow (outside Model/Range), NaN (outside Model/Nan, Model/NanSlip and Model/NanKM) and infinities are
  *not* modelled.  Where the C++ would divide by zero or take a logarithm / power of a non-positive
  number, the model has the explicit outcome `undef` (or the law is `none`), or the theorem carries
  the precondition; Lean's `x/0 = 0` is never relied upon.  Square-root constants are exact reals;
  C46 bounds the distance between each decimal literal and the exact value.
* **Arrays.** `double x[n]` is `Fin n → ℝ`; row-major matrices are `Matrix (Fin m) (Fin n) ℝ` (macros
  ECMECH_NN_INDX / ECMECH_NM_INDX).  The batch interface, the Python bindings and the driver's
  initialisation work on flat memories with explicit lengths, strides and offsets, including 32-bit
  wrap-around; an access outside an array is `undef`; memory that has not been written is `none`.
* **Templates.** Slip geometry, elasticity, slip kinetics and equation of state are parameters of the
  model of the update (`Material`), with one instance per class in the repository (`Case.type`).
* **External libraries.** The nonlinear solver (SNLSTrDlDenseG) and the linear solver (SNLS_LUP_SolveX)
  are in a submodule that is empty in /repo.  They are *arbitrary* functions in the model (`Ext`,
  `Solver`, `LUP`).  Theorems that need a contract state it: `Solver.Sound` (when it reports
  convergence, the residual at the returned point is at most the tolerance and that point was the last
  one evaluated), `LUP.Sound` (returned rows solve the systems).
* **Failure.** `ECMECH_FAIL` throws on the host: outcome `fail` together with the memory contents at
  that moment.  On a device the macro only prints and the routine runs on: Model/Device gives the
  memory and the list of messages.  A failed `assert` is `undef`.
* **Specification.** `Verif/Spec.lean`, `Verif/SpecApi.lean`, `Verif/SpecUnits.lean` and `Verif/SpecNewton.lean` define the meaning of the properties
  (3x3 tensors, rotations, double contraction, axial vectors, Voigt stiffness, crystal symmetry groups,
  Miller indices, stride minima, ...) without using definitions of the model.

### Modelled code

| code | model |
|------|-------|
| ECMech_const.h | Model/Const |
| ECMech_util.h (all functions except the string / printing helpers) | Model/Util, Model/SlipGeom (Miller indices) |
| ECMech_slipgeom.h | Model/SlipGeom |
| ECMech_eosSimple.h | Model/Eos |
| ECMech_evptn.h: ThermoElastNCubic / Hexag | Model/Elast |
| ECMech_evptn.h: EvptnUpdstProblem | Model/Problem |
| ECMech_evptn.h: getResponseSngl, NumHist, history layout | Model/Response |
| the update as compiled for a device (ECMech_port.h, ECMech_gpu_portability.h) | Model/Device |
| getResponseECM with its execution strategies | Model/DeviceBatch |
| ECMech_evptn.h with ECMECH_USE_DPEFF | Model/DPEff |
| ECMech_slipgeom.h and miller_to_orthog_sngl with NO_CHECKS | Model/NoChecks |
| printVec, printMat of ECMech_util.h | Model/PrintVec |
| checks of moduli, density, four-index conversion and slip tables with NaN | Model/Nan |
| evalGdot and getVals of KineticsVocePL, scale of the residual and flow strength with NaN | Model/NanSlip |
| gdot of evalGdot of KineticsKMBalD with NaN | Model/NanKM |
| ECMech_kinetics.h | Model/Hardening, Model/Kinetics |
| ECMech_kinetics_VocePL.h (both variants) | Model/Voce, Model/Params |
| ECMech_kinetics_KMBalD.h (all template arguments) | Model/KMBalD, Model/Params |
| test/test_aniso_kinetics_VocePL.h | Model/AnisoVoce (getSdotN: Model/Voce) |
| ECMech_evptnWrap.h, ECMech_matModelBase.h, ECMech_cases.h/.cxx | Model/Batch, Model/Wrap |
| concurrent execution of the batch loop | Model/Parallel |
| pyecmech/ecmechpy.cpp, ecmech_classes.hpp | Model/Python |
| pyecmech/ecmech_pybind11.cpp (solve, getState), example.py | Model/PyCall |
| pyecmech/ecmech_classes.hpp as an object with a state, example-dev.py | Model/DevObj |
| miniapp/setup_kernels.cxx, retrieve_kernels.cxx, material_kernels.cxx, loop of orientation_evolution.cxx | Model/Miniapp |
| miniapp/orientation_evolution.cxx: main | Model/Driver |
| host and device memory of the driver, miniapp/miniapp_util.h | Model/Space |
| miniapp/option_*.txt, rand_quats_*.txt, props.txt | Model/Shipped |
| the same code in floating-point arithmetic: quaternion update, sums of slip, rotation, residual and power law, tables, equation of state and energy, linear Voce hardening, dislocation density | Model/HardRound, Model/DensRound, Model/Rounding, Model/RotRound, Model/ResidRound, Model/TableRound, Model/EosRound |
| slip and hardening laws with range checks | Model/Range |
| output of numbers, logParameters, lines written by the example program | Model/Print |
| test/test_px.cxx with the setup files it includes | Model/TestPx |
| test/test_updst.cxx, driver_a, with the setup files it includes | Model/TestUpdst |
| test/test_evptn.cxx; test/test_updst.cxx, updst_a | Model/TestEvptn |
| test/test_hardening.cxx; test/test_aniso_hardening.cxx | Model/TestHard |

### Not modelled

Rounding (except in the quaternion update, the accumulated slip, the rotation of stress and rate, the residual with the power law, the tables of the cubic slip systems, linear Voce hardening, the update of the dislocation density, the equation of state and the energy balance: Model/Rounding, Model/RotRound, Model/ResidRound, Model/TableRound, Model/EosRound, Model/HardRound, Model/DensRound, C71, C74, C88, C90, C91, C105, C107, C109) and IEEE special values (except overflow and vanishing divisors in the slip laws: Model/Range, C89; NaN in the checks of moduli and slip geometry: Model/Nan, C117; NaN in the slip laws: Model/NanSlip, Model/NanKM, C118); the MSLIB variant of ECMECH_FAIL; the loops of RAJA (order independence
is C35, independence of the interleaving C61, the choice of the strategy C104), memory movement between host and
device outside the driver (there Model/Space, C95); debug output other than of vectors and matrices (those: Model/PrintVec, C116; other output: Model/Print, C106); the loops of setup_kernels.cxx and retrieve_kernels.cxx for OpenMP and GPU, which agree with the modelled sequential ones line by line apart from the RAJA policy (on a GPU six stress entries are copied by a loop instead of std::copy);
the internals of SNLS; the internals of pybind11, numpy and scipy; timers; what the unit tests print (as programs with their checks they are modelled: C92, C110, C112, C113, C114; expected values: C76, C77); build scripts.

## 2. Files

| file | contents |
|------|----------|
| `lean/Verif/Spec.lean`, `SpecApi.lean`, `SpecUnits.lean`, `SpecNewton.lean` | independent specification vocabulary |
| `lean/Verif/Model/*.lean` | model of the C++ with file/line citations |
| `lean/Verif/Lemmas/*.lean` | helper lemmas |
| `lean/Verif/Props/*.lean` | property theorems with non-vacuity examples |

## 3. Per property: what is modelled, how it is proved

"Refuted" means: the property is false of the code; its negation is proved with a concrete witness,
and the part that does hold is proved beside it.

| id | model | what is proved and how |
|----|-------|------------------------|
| C01, C02 | notation conversions (Util) | round trips, contraction and norm identities against 3x3 tensors; component algebra with the exact square roots |
| C03, C04 | quaternion helpers | polynomial identities: orthogonal, det 1, product, associativity |
| C05 | emap_to_quat | unit for every vector; Rodrigues formula above the cut-off 1e-90; bound below it |
| C06 | get_rot_mat_vecd | 5x5 matrix = conjugation of the tensor, for every orthogonal matrix of det 1; orthogonality |
| C07 | getResponseSngl, any solver | one step and induction over any list of steps |
| C08 | M35_d_AAoB_dA | bilinear identity with the commutator |
| C09 | dquat_demap_T, d_quat_to_tensor | Fréchet derivatives; series branch within 1e-28 |
| C10 | d_rot_mat_*_latop/smop, eval_d_dxi_impl_quat | Fréchet derivatives and chain rule |
| C11 | computeRJ | chain rule over all blocks, including scale factors; hypothesis on slip rates discharged for the power law (C11_voce); at the solver's starting point the Jacobian is the exact derivative of the residual with the exact exponential map (C11_start), and for rotation increments between 1e-90 and 1e-9 every entry is within 1e-26 times the scaled imposed rates of it (C11_series) |
| C12 | H1/HN problems with all three laws | derivative of the residual; per-system law as well |
| C13 | residuals | zero residual iff backward Euler equations between tensors |
| C14 | mtan_conv_sd_svec | acts on Voigt vectors as the internal tangent does |
| C15 | tangent part of computeRJ | implicit differentiation along any path of solutions continuous at the current rate (differentiability is derived, C15_continuous); volumetric entry |
| C16, C17 | slip tables | finite tables over symbolic square roots; HCP for every c/a > 0 by proving the vectors explicitly; cubic lists equal the crystallographic families, HCP closed under the hexagonal class and equal to {0001}<11-20>, {10-10}<11-20>, {10-11}<11-20>, {10-11}<11-23> for every c/a (C17_hcp_families) |
| C18 | fillFromMS, assembly | Schmid law, plastic rate and spin as tensors, power identity |
| C19 | miller_to_orthog_sngl | case analysis over the branches; zone law |
| C20, C21 | EosModelConst, updateSimple | algebra, derivatives |
| C22, C23, C53, C54 | getResponseSngl | unfolding of a successful step, then the elastic law in tensors; C23 summed over histories by induction |
| C24, C25 | VocePL evalGdot | rpow analysis of each branch |
| C26 | same | **refuted** at the overflow limit; monotone below it |
| C27 | VocePL hardening | implicit linear equation: unique solution, bounds, monotone in dt, solver tolerance |
| C28, C29 | KMBalD evalGdot | positivity of each branch; drag bound |
| C30 | same | **refuted**: sign of the reverse-jump term; right without reverse jumps, strength derivative always right; the small-argument branch of the drag law is off by less than 1e-8 (C30_drag_small) |
| C31 | KMBalD updateH | strictly monotone implicit equation |
| C32 | getResponseSngl | dissipation, accumulated shear, induction over steps; both kinetics |
| C33 | getResponseSngl | equivariance of the whole update under a rotated observer, any solver |
| C34, C59 | residual | explicit solutions |
| C35, C36, C37 | batch interface, strides | windows are disjoint; loop in any order = pointwise updates |
| C38, C57, C58 | getResponseSngl | two-run reasoning |
| C39, C40–C43 | setParams/getParams, matModel, makeMatModel | reader monad, state machine over call sequences; C40 **refuted** for the nonlinear Voce kinetics |
| C44, C45, C52, C60 | Python bindings | decision logic and index bounds; C44, C45 **refuted** for strided/broadcast arrays, C52 for HCP, C60 for the energy |
| C46 | literals | rational bounds on squares |
| C47 | elasticity | against the 6x6 Voigt stiffness; positive definiteness; reported shear modulus |
| C48 | temperature | **refuted**: beginning-of-step value returned |
| C49 | offsets | **refuted** from 2^32 on; exact below |
| C50, C51 | miniapp kernels | algebra; frame reasoning over writes; C51 **refuted** for flow strength slot and several hardness variables |
| C55 | equations and update without tangent (with tangent: C102) | equivariance under the 24 cubic and 12 hexagonal rotations, permutation of systems up to sign |
| C56 | matrix helpers | sums over `Fin n` for every size |
| C61 | Model/Parallel: point updates as programs of single reads and writes | confluence by ownership of locations; termination measure |
| C62 | getResponseSngl, both kinetics | no `undef` outcome; invariants carried along any history; margin for the power law shown necessary |
| C63 | nonlinear VocePL | clipped law is monotone; **refuted** above saturation |
| C64 | KMBalD getVals, evalGdot | error bounds branch by branch against a specification of the law; **refuted** below half the reference temperature |
| C65 | KMBalD evalGdot | monotone parts joined over all branches; exact form **refuted** |
| C66 | getResponseSngl, updateSimple, getGmod | derivative along the isentrope of the step; average of the stiffness over orientations |
| C67 | getResponseSngl on a device | quiet runs equal the host run; **refuted**: a failed solve leaves no trace in memory |
| C68 | getResponseSngl and the history descriptions (models, Python object) with ECMECH_USE_DPEFF | two-run comparison; Cauchy-Schwarz per slip system; induction over steps |
| C69 | getResponseSngl, computeRJ | elastic-energy inner product with the strain equation; dissipation sign; induction over steps; for hexagonal crystals relative to the strain without shear stress (Props/StabilityHex) |
| C70 | getResponseSngl, computeRJ with two solvers | monotone operator argument in the elastic-energy norm |
| C71 | vecsVNormalize, emap_to_quat, quat_prod in floating point (Model/Rounding) | forward error analysis; induction over steps; a 53-bit rounding with gradual underflow is shown to meet the assumptions |
| C72 | getResponseSngl, computeRJ, power-law evalGdot | strain equations by minimising a potential (Lemmas/Exist), continuous in the right-hand side by monotonicity; rotation equations by Brouwer's fixed-point theorem, proved in Lemmas/Brouwer as Mathlib has none; the code's law and exponential map are compared with continuous ones (Lemmas/Solvable) |
| C73 | getResponseSngl, computeRJ, power-law evalGdot, saturation updateH | backward Euler compared with the rate equations: bounded Lipschitz fields, consistency of one step, implicit discrete Gronwall inequality (Lemmas/Converge, RateEq, ConvergeSeq, ConvergeStep); slip and hardening laws enter through their distance from Lipschitz laws, shown for the power law with constant saturation strength in Props/ConvergeVoce.  Props/ConvergeGlobal removes the assumption that computed and exact states stay within bounds: the dissipation of the slip law and the relaxation of the strength give the bounds from the start values.  With a rate-dependent saturation strength (xms ≠ 0) the law of the code jumps at a slip rate of 1e-90, so it has no Lipschitz law nearby and is left out |
| C74 | vecsssumabs and the accumulation of hist[iHistA_shrEff] with rounding | relative error recursion for sums of one sign; order and absorption of double-precision rounding (Lemmas/RoundingAcc); refuted: the stored slip need not follow the total, finding 28 |
| C75 | the whole update, both kinetics families, in two systems of units (SpecUnits) | every quantity of the problem converts, and the scaled residual and Jacobian handed to the solver are identical (Lemmas/Units, Lemmas/UnitsKin), so the result is the converted result for every solver; refuted for Voce strengths below one, finding 30 |
| C76 | the hardening laws of the model with the data of the unit tests of the hardening laws | enclosures of the roots and exponentials by rational numbers (Lemmas/Numeric); the only solution of the equation of the step is the expected value of the test to its last digit, for the density every solver that keeps its contract passes; the tolerance of the Voce test is not implied by the solver's, finding 31 |
| C77 | the whole material update with the data of the unit tests of one step: power law in FCC, dislocation kinetics in FCC, BCC and HCP, through setup, equation of state, hardening, kinetics, geometry, solve and stored results | the loading is along the axis of the lattice with a spin about it, which leaves one scalar equation (Lemmas/Axisym, AxisHcp); its root is enclosed by rational certificates (Lemmas/KMRoot, KMHex); the result meets the three comparisons of the test.  Existence: there is a solver that keeps its contract and passes.  With tolerance zero every solver that ends at that orientation passes (power law).  Not covered: the expected numbers of function evaluations, which depend on SNLS, and the request for a tangent in test_evptn |
| C78 | a series of whole material updates with dislocation kinetics in FCC at a hundredth of the reference temperature, loaded steadily along its first slip system from the stress-free state, any solver that keeps its contract in each step | below the edge of flow an accepted step is elastic up to the tolerance, and no step can cross the edge because there the law jumps from zero to more than the loading can supply (Lemmas/JumpStep); so N accepted steps of size dt have N·dt < 1e-3 (C78_refuted_cold).  The converse: up to 88e-5 there are solvers for which every update succeeds (C78_until) |
| C79 | two whole material updates from the same memory and inputs with different solvers, both kinetics, stable cubic or hexagonal elasticity, any slip systems, a step short on the scale of the imposed rate and spin | slip rates that follow one stress cannot cancel in the strain rate: sum of magnitudes at most K times the strain rate, K depending on the slip systems only (compactness over the finitely many sign patterns, Lemmas/SlipBound, C79_geometry).  With the monotone laws this bounds elastic strain, slip and then rotation of two accepted points by each other, with Lipschitz constants of the exponential map (Lemmas/RotLip) and rotations of tensors; the step length needed does not depend on the slip law (Lemmas/UniqueStep, C79_step).  With exact equations and exact exponential map there is exactly one solution (C79_balance, existence from C72).  C79_voce and C79_kmbald show that both kinetics satisfy the hypothesis on the law |
| C80 | the Newton matrix computeRJ forms (the residual's reported derivative), the tangent solve in getResponseSngl, both kinetics, stable cubic or hexagonal elasticity, any slip systems | the linearised equations at any trial point are those of C79 with slopes in place of rates, so the same bound shows that the matrix has no kernel when no reported slope is negative and the step is short, independently of the slopes and of the trial point (Lemmas/NewtonMatrix, C80_jacobian).  Hence with a complete linear solver the tangent never makes a short step fail that succeeds without it (C80_tangent, discharging the disjunct left open by C38), and at a solution the changed equations have exactly one solution nearby, differentiable, with the tangent as derivative of the stress (C80_derivative, discharging the determinant and path hypotheses of C15_continuous).  The slopes: C80_voce, C80_kmbald (cold or linear barrier), C80_kmbald_curved (usual shape exponents and temperatures; covers the unit-test parameters).  The reported dislocation slope has the backward jumps with the wrong sign (C30), so its sign has to be argued: below the barrier the forward term is larger, near and above it the power-law term is (Lemmas/KMSlope) |
| C81 | the main program of the driver: the four option lines, the orientation and parameter files (what string streams extract is arbitrary), choice and initialisation of the model with strides, allocation, the loops over all points on flat arrays, the time loop and the printed averages; the model strategy; the NEVALS report | loops over points by induction with disjoint windows (Lemmas/Driver), the batch by C35/C36, initialisation by C41/C51, so a step on the arrays is a step of every point (C81_step) and the loop the courses of the points (C81_run).  C81_main is an equivalence: the program ends well with a given output exactly when the files are proper, the material can be built (C81_parameters) and every crystal by itself can be driven through the sixty steps, and then the output is their mean stresses.  Consequences: independence of fresh memory (C81_garbage) and of the order of the orientations (C81_order).  Refuted: the report of evaluations (C81_refuted_nevals) and the device of the mts model (C81_refuted_strategy).  C81_nevals_range says what the NEVALS report does print: least, greatest and mean of the slot it reads; C81_failure: after an error the means of the completed steps have been printed |
| C82 | whole histories of updates of a cubic crystal with power-law slip and linear hardening, with or without tangent; the sixty steps of the example program | invariant of a history: strength between bounds that widen by the solver tolerance per step, elastic strain bounded by what was supplied (C69), stored slip rates bounded by the code's cut-off.  In range, the equation for the strength has a solution (C27, C82_strength), the problem can be set up and has an acceptable point (C72, C82_update), and the result is in the next range (C82_step, C82_next).  By induction all steps succeed (C82_history) and the program ends (C82_program), given solvers that find an acceptable point whenever there is one and a linear solver that answers.  C82_zero_quat: one zero quaternion in the file and it never ends well |
| C83 | the slip law, the equations, one step and whole histories of crystals with dislocation kinetics at temperatures from half the reference temperature on, any slip systems, any stable elasticity | C83_law: in the warm (barrier at the drag cut-off at least 35 thermal energies, condition `Warm`) all jumps of the coded law together are within 2e-22 reference rates of the documented law, which is continuous and monotone.  With Updst.exists_near the equations have an acceptable point for every step length, rate, spin and state (C83_solution, C83_update) — the opposite of C78 in the cold.  C83_density: the equation for the density has a solution, and the new density is between `lo` and the old bound plus tolerance, whatever the old density.  C83_step, C83_history: no step fails as long as its temperature is in the window.  C83_test: the FCC and HCP parameters of the test suite between 150 and 400 K |
| C84 | the heat of whole histories of a cubic crystal with dislocation kinetics, and the example program with the model `mts` | C84_deviator, C84_stress: the stress written by a step has no trace and is at most the root of the largest shear stiffness times the energy norm of the elastic strain.  C84_heat (from C23): without volume change the energy changes at most by imposed strain times mean stress.  C84_step combines C83 with C69_step_at: strain, stress and energy grow at most by what was supplied.  C84_history: where the window of temperatures of C83 is wider than the work of the history divided by the specific heat, every step succeeds, and the temperature cannot leave the window.  C84_program: the example program with proper files for `mts` reaches its end with 60 lines of output; example with the parameters of the test suite |
| C85 | yield of crystals over whole histories | C85_fcc, C85_bcc: the squares of the twelve resolved stresses add up to at least 2/3 of the square of the stress, so one of them is at least 1/√18 of it; C85_systems: for any systems that no stress avoids there is such a constant (antilipschitz bound of an injective linear map).  C85_tables ties this to the 5-vectors of the code.  C85_step keeps the plastic power that C69 throws away: either the elastic strain is below what the yield stress carries or it changes by at most supply minus slip.  C85_history: the bound is `max(Y, E0 − δ·time)`, free of the number of steps.  C85_voce, C85_kmbald: both slip laws yield in this sense.  C85_endless: power-law crystals go through up to 10⁹ steps with a stress bound independent of accumulated strain (C82 needed the sum of the supplies); example: copper through 10⁷ steps of the example program stays below 1.3 GPa.  Hexagonal crystals (Props/YieldHex.lean): C85_hcp bounds the part of the stress through the basal systems (two out-of-plane shears), the prismatic ones (two in-plane shears) and the sum of the c+a ones (tension along c); C85_hcp_needs: the a systems carry no tension along c; C85_step_any, C85_history_any, C85_stress_any measure the strain from the strain without shear stress |
| C86 | a call of the Python binding as the caller sees it, and pyecmech/example.py (Model/PyCall) | C86_convert: whatever the element type, C++ gets a legal contiguous array with the caller's numbers; C86_results: with outputs of doubles the call succeeds exactly when each row's update does and each row holds that result; C86_failure: after an exception the rows before the failing one hold results, that one what its failed update left, the others are as before; C86_script: the script prints `out` exactly when the 41 updates succeed and `out` lists their first stress components; C86_script_runs: they do, with a solver that finds solutions (via C82).  C86_lost, **C86_refuted_integers**: outputs of another element type are left as they were; **C86_refuted_temperature**: so is the temperature passed to getState of pyECMechDev |
| C87 | the input files of the repository (Model/Shipped: their lines, and a reader of decimal numbers after the C++ stream rules) | C87_runs: the files are read as the intended parameters (evaluated by the kernel) and C82 applies; C87_refused: devices not built in; **C87_refuted_script**: `./option_cuda.txt` does not exist; C87_heat: the specific heat enters nothing but the temperature; **C87_refuted_units**: with props.txt temperature rises are 1000 times those of consistent units |
| C88 | quat_to_tensor, get_rot_mat_vecd, vecsVMa, vecsVMTa, vecdsToSvecP and the literals of ECMech_const.h with rounding after every operation (Model/RotRound) | forward error analysis: every entry of the 5x5 matrix within 39 roundoffs of the exact formulas, accumulated products, effect of a length that is not exactly one (Lemmas/RotRound); with C71 and the Lipschitz bounds of Lemmas/RotLip for histories |
| C89 | evalGdot, getEvolVals, getSdot1 of both kinetics and get_mts_dG, every operation followed by a test of its range (Model/Range) | orders of magnitude of all intermediate results; the thresholds of the code (gam_ratio_min, t_min, t_max, idp_tiny_sqrt) bound every divisor from below, the series combination bounds the factors gdot^2/gdot_w^2 by one (Lemmas/Range, Lemmas/RangeKM); C89_limit shows that the tests can fail |
| C90 | computeRJ (residual), evalGdot of the power law, fillFromMS with rounding after every operation, library functions with two roundoffs (Model/ResidRound, Model/TableRound) | forward error analysis with magnitudes carried along (Lemmas/ResidRound to ResidScale); Lipschitz bound of the power law for the error of the resolved stress (Lemmas/LawRound); the hypothesis `Clear` keeps the imposed rate a thousandth away from the threshold epsdot_scl_nzeff * adots_ref, where the scale factor jumps from 1/adots_ref to 1/rate and a roundoff decides the branch |
| C91 | FltHistory: sequence of residuals of Model/ResidRound linked by the stored strain and quaternion | strain part of the residual in exact arithmetic from C90, energy estimate of the implicit step (C69), triangle inequality for the roundoff of the stored strain; the closed form solves the estimate for the strain increment and sums by induction |
| C92 | the whole material update, the scale of the residual (epsdot_scale_inv), dislocation kinetics of the tests, first step of test_px | accuracy: the scale factor equals one over the stated rate by cases, the strain part of the residual is the tensor balance (C13); response: with unchanged strain and no slip the gap is the imposed rate. Refutation: at a relaxed crystal the starting point of the solver has residual rate / reference rate; induction over the steps. Polycrystal test: the step is elastic for every orientation (resolved shear below the athermal threshold by Cauchy-Schwarz), a fraction of the increment has an explicit residual |
| C93 | the whole material update, equation of state and its explicit energy update | balance: the energy of one step (C23) rewritten with the antiderivative of the cold pressure, induction over the steps; sign of the loss from log r ≤ r - 1, its size from the same inequality for 1/r. Refutation: a relaxed crystal stays relaxed for the ideal solver whatever the volume, the energy recursion is solved in closed form |
| C94 | the whole material update of cubic crystals with energy, stress and elastic strain | imposed rate solved for rate of elastic strain plus slip minus lost rate (C92), contracted with both stresses pulled back to the lattice; symmetry of the elastic law turns the mean stress times strain increment into the change of the stored energy; bounds by Cauchy-Schwarz and the rotation bound of C91. Refutation: explicit steps between collinear elastic strains whose residual is exactly zero, energies in closed form |
| C95 | memory of the driver: kinds of memory, who can reach them, a heap of blocks, allocation, copies, the loops with their processors, the captured model object, deallocation (Model/Space) | symbolic runs of the heap for each kind of build; guarded loop equals the loop of C81 when the guards hold; C95_main is an equivalence, so undefined runs are exactly the rest; **refuted** for CUDA without the workaround and for HIP |
| C96 | the residual and Jacobian of computeRJ driven by textbook Newton iteration (SpecNewton); cubic elasticity | the Jacobian is compared with the change of the residual block by block: the part left over is of the order of the step, so the defect contracts by 16σ; jumps of the law at its cut-offs and of the rotation map at 1e-90 give the floor; induction over the iterations keeps the strain in reach; example: the copper of the parameter files, one nanosecond, 42 evaluations |
| C97 | the developer's object with its members, any sequence of calls, the wrapper class and the script example-dev.py (Model/DevObj); scipy's root finder is a parameter | induction over the sequence of calls with an invariant on what has been set up and evaluated (C97_evaluation, C97_state are equivalences); C97_failed_rates: the slip rates a failed setup leaves are those of the mixture; the run of the script is compared with that of C86 state by state; **refuted** for energies, repeated calls, other objects, failed setups, unchecked roots and unchecked arrays |
| C98 | the whole update at an axial state, for fcc and the twelve-system bcc geometry and the power law with linear Voce hardening | the residual on the axis of unknowns has one entry other than zero, and the Jacobian maps the axis to itself (Lemmas/AxisStep), so Newton stays on it; existence by the intermediate value theorem up to the jumps of the law; limits by contraction: the stress moves towards the flow stress by a fixed amount per step outside any range about it, the distance of the strength from saturation shrinks by 1/(1+mu) with the slip of a window of steps bounded from below (Lemmas/AxisScalar); example: the copper of the parameter files pulled for ever, limit to four digits |
| C99 | the class of test/test_aniso_kinetics_VocePL.h with updateHN, as kinetics of the whole update and of the model class | the law of all systems is the vector of the single laws (C27_law), the residual is antitone in every component, so the residual norm bounds the distance of every strength from its solution; C99_response by comparing all branches of the update; C99_refuted_model through init_outcome |
| C100 | getResponseSngl for any material and any solver in a class that contains plain Newton, damped Newton and dogleg | residual and Jacobian commute with the turn of the unknowns wherever the unknowns are symmetric (from C55's lemmas with orientation change zero); an axis-free set leaves no rotation unknown; the iteration then stays among symmetric points; C100_solution by uniqueness of the strain at zero rotation (strict monotonicity of the power laws), which makes the solution symmetric |
| C101 | getResponseSngl with the tangent, any material, any solver | the derivative of the stress is written as a tensor (C S' Cᵀ + H S Cᵀ + C S Hᵀ with H the derivative of the rotation matrix), each piece turned exactly; the right-hand sides of the two observers span the same space, the solutions are combined accordingly; C101_observer says what the turned tangent is without components |
| C102 | computeRJ with its matrix, the iteration, provideMTan, getResponseSngl, any material with the symmetry | every block of the matrix turned exactly (derivative of the rotation matrix, slip gradient, lattice operators); the iteration by induction over the visited points; the tangent through the turned solutions of the linear systems; C102_shared gives a class of steps (C100) in which the excluded rotation increments do not occur, used in the example with copper |
| C103 | the reader of Model/Shipped (the C++ stream rules for decimal numbers), the file handling of Model/Driver | notations as a structure with their text and value, reading by induction over the digits in both directions; **C103_refuted_rest** with three lines |
| C104 | getResponseECM with its three loops, results as returned / thrown / undefined (Model/DeviceBatch) | induction over the points with the single-point device theorems of C67 and the windows of C35; **C104_refuted_openmp** for every failing point, **C104_refuted** with a batch of two points of which one does not converge |
| C105 | the equation of state, updateSimple and the energy balance with a rounding after every operation (Model/EosRound) | forward error analysis with the calculus of C90; induction over the steps for the energy; monotony of the rounding for the qualitative statements; **C105_refuted_relative**: at v = 1 - 2^-53 the rounded 1/v is 1 + 2^-52, so the pressure doubles |
| C106 | output of numbers by streams (%g with P digits, any rounding to nearest), logParameters, the lines of the example program (Model/Print) | digits by induction over the width, value and text of the decimal notations of C103, rounding to P digits with the decimal logarithm; **C106_refuted_log** with the shipped parameter file |
| C107 | getEvolVals, getSdot1, computeRJ, getHn for linear Voce hardening with a rounding after each operation (Model/HardRound) | error calculus of C90, exact solution of the linear implicit equation, bootstrap of the size of the increment, contraction of the implicit step over the history |
| C108 | plot and state flags of the description, getResponseSngl | the update depends on the memory only through what it reads (Lemmas/Restart); induction over the run |
| C109 | updateH, getEvolVals, getSdot1 of the dislocation kinetics, computeRJ, getHn, with a rounding after each operation and library functions with error bounds (Model/DensRound) | error calculus of C90; the error of the residual grows with storage and recovery, but so does its slope: distance from the solution by convexity of the exponential (dens_distance); the exact step is nonexpansive in the old value and well conditioned in the recovery coefficient, so the errors of a history add up |
| C110 | test_px.cxx as a program: parameters, object, arrays, loop over the steps with the volume ratios, call of getResponseECM, mean stress (Model/TestPx) | the loop by induction over the steps with C35 (batch independence) and the volume ratios by the zero volumetric rate; start by C41; independence from uninitialised memory by C108; end of the Voce variant by C82 (one step of a long history) with the parameters of the test; C110_refuted_digits from C92_refuted_px |
| C111 | one update as before | the accepted point of one problem carried to the other by equal stress and rotation (Lemmas/StepLip), then the pair estimate of C79 with the differences of rate, spin and volume as perturbation; stress by C94_stress; pressure by C22 and C66; C111_refuted_coupling from an elastic strain below the slip threshold of the power law, where the zero increment solves the equations for every volume |
| C112 | test_updst.cxx, driver_a, as a program: parameters, object, arrays, loop, perturbed rates, difference quotients (Model/TestUpdst) | one call by C35 for one point; loop by induction; start by C41; energy and pressure by C23, C22 and C84; end by C82 with the exponents 0.01 and 0.1; mean of the quotients by C22 and bounds of the exponential, of the tangent by C15_volumetric. Whether the comparison of the deviatoric parts passes is not claimed |
| C113 | test_evptn.cxx and updst_a of test_updst.cxx as programs: equations by hand, both calls, checks (Model/TestEvptn) | both sides of the setup computed; stored values read off the update; tangent and memory by C38 and C108; one call by C35 for one point; passing by C77 with a solver that reports the expected number of evaluations |
| C114 | test_hardening.cxx and test_aniso_hardening.cxx as programs (Model/TestHard) | the runs of Newton's method step by step with rational enclosures of the iterates (Lemmas/TestNewton): the linear equation is solved by one step, for the others the residual after a step is the second-order remainder; values by C76 |
| C115 | fillFromMS, miller_to_orthog_sngl and the hexagonal geometry with NO_CHECKS (Model/NoChecks) | case analysis of both programs; the library by C16; the missed stress by direct computation; negative ratios of the axes from the tables for any ratio |
| C116 | printVec, printMat (Model/PrintVec) | induction over the entries; numbers by C106 with 14 digits; length of a number by its exponent; reading back by C103 |
| C117 | checks of moduli, density, four-index conversion and slip tables (Model/Nan) | values extended by NaN; agreement on numbers case by case; NaN through the tables entry by entry |
| C118 | evalGdot and getVals of KineticsVocePL, scale of the residual, flow strength (Model/NanSlip); rate of KineticsKMBalD (Model/NanKM) | values extended by NaN as in C117; the comparison with the threshold is false for NaN |

## 4. Trusted base

* The Lean kernel, and the axioms `propext`, `Classical.choice`, `Quot.sound` (standard Mathlib) for
  every theorem; a few need fewer.  No other axioms, no `native_decide`, no `bv_decide`.
* The transcription from C++ to the model (each definition cites file and lines).
* Real arithmetic in place of IEEE double (C71, C74, C88 and C90 carry rounding errors).
* The contracts of SNLS where a theorem assumes them (`Solver.Sound`, `LUP.Sound`); RAJA, pybind11,
  CUDA/HIP/OpenMP runtimes are not modelled.

## 5. Findings (places where the code departs from the property or is fragile)

Proved, with the theorem:

1. `KineticsVocePL<true>::getParams` omits `_xmprime` (C40_refuted_voce_nonlinear, C40_refuted_voce_not_injective).
2. `KineticsVocePL::evalGdot` jumps *down* from 1e60 to 1e45 times the reference rate at the overflow
   threshold (C26_refuted).
3. `KineticsKMBalD::evalGdot` has the wrong sign for the reverse-jump term in the stress derivative
   (ECMech_kinetics_KMBalD.h:542; C30_refuted).
4. `ThermoElastNCubic::_K_gmod` lacks the factor 1/2 of the hexagonal class
   (C47_reported_shear_modulus_inconsistent).
5. `tkelvV` is the beginning-of-step temperature (C48_refuted).
6. Offsets are 32-bit (C49_refuted_*).
7. `complete()` before initialisation reads an uninitialised member (C42_complete_too_early); a failed
   re-initialisation leaves a complete model usable with mixed state (C42_failed_init_keeps_complete).
8. Python: strided and broadcast arrays are accessed as if contiguous (C44_refuted_strided,
   C44_refuted_broadcast, C45_refuted_broadcast); array length cut to 32 bits (C44_refuted_length).
9. `pyEvptn_norm::nParams` omits the slip geometry parameters (C52_refuted_hcp); its energy output is
   computed from members never assigned (C60_refuted_energy).
10. Driver: the hardness initialisation loop drops its index (C51_refuted_hardness); the flow strength
    slot is never initialised (C51_refuted_flow_strength; harmless: C51_flow_strength_unused).
11. A failure of the final modulus check happens after history and stress were written
    (C57_late_failure).
12. An HCP axial ratio of -1.6 is rejected as "internal error" (C39_negative_ratio).
13. For 0 < |e| ≤ 1e-90 a rotation vector is turned into a rotation about the first axis (C05_tiny).
14. The hexagonal pressure differs from the equation of state by an elastic coupling term (C22_hexag),
    and the tangent has no volumetric-deviatoric coupling column (C15_volumetric).
53. For the cubic class as well the tangent is not the derivative of the stress in the direction of volume: the deviatoric
    stress falls with the power -4/3 of the volume, the tangent says it does not change.  Relative to the bulk modulus the
    missing term is of the size of the elastic strain (C111_refuted_coupling).
54. In test_updst the pressure that is checked lags one step behind: it is determined by the stresses of the first 99 steps
    and does not depend on the stress of the last step, which is checked beside it (C112_pressure, C112_expected).
55. test_evptn.cxx:134 checks `rho - 1 < 1e-3` where the message says that `rho` should be close to one: every value below
    one passes, also negative ones (C113_refuted_rho).
15. Voce nonlinear above saturation (for instance after a drop of the slip rate): `pow` of a negative base
    makes every update fail for exponents that are not integers (C63_refuted_above,
    C63_refuted_rate_drop); for even exponents the rate has the wrong sign (C63_refuted_even) and the
    equation has a second root above saturation (C63_refuted_spurious_root); exponents below one
    fail when saturation is below the initial strength (C63_refuted_small_exponent).
16. The tolerance of the hardness solve is absolute for values below one, so a strength of 1e-11 (in user
    units) may become negative, which the next operation asserts against (C62_margin_needed).
25. `KineticsKMBalD::evalGdot` returns zero when the forward jump rate is below 1e-60, without the power
    law term; for temperatures below about half the reference temperature that term can be of order one
    there, so the slip rate jumps from zero to a finite value (C64_refuted_cold).
26. The slip rate drops by a relative 5e-9 at overstress 1e-8 wrD (C65_refuted_exact).
56. hard_voce_nostr (test_hardening.cxx:83, test_aniso_hardening.cxx:89) expects two evaluations where the first guess is
    already the solution.  A solver that looks at the residual before the first step needs one and fails the test with the
    right strength (C114_refuted_first).  The counts of the other tests are those of Newton's method with the exact
    derivative, and with the linear law the count shows an error of the derivative (C114_derivative).
57. The check of the plane indices in miller_to_orthog_sngl compares their sum with 1e-8, the same number that decides which
    of them count as zero.  An index of exactly 1e-8 with two zeros passes and is followed by a division by zero
    (C115_refuted_division; possible only for indices up to 2e-8, C115_protects).  The message "internal error" is what a
    direction outside the plane gets, which is an error of the input (C115_refuted_internal).
58. A hexagonal material with the ratio c/a = 0 is accepted.  All its directions lie in the basal plane and no system carries
    anything of a tension along c (C85_refuted_zero); every positive ratio is sound (C85_hcp_exact).  Negative ratios are
    refused only by the check that NO_CHECKS leaves out (C115_refuted_ratio).
59. printVec leaves the stream at 14 digits, so that numbers written after it look different (C116_refuted_sticky).
60. The checks of the bulk modulus, the shear modulus, the reference density and the slip geometry are comparisons that a NaN does
    not meet, so that a NaN parameter passes them all (C117_refuted_moduli, C117_refuted_ratio).
61. The power law of Voce hardening answers a NaN as stress or strength with no slip, because the comparison with the
    threshold is false (ECMech_kinetics_VocePL.h:242).  Without assert a crystal whose strength is NaN does not slip under any
    stress, and its rates and its effective rate of slip contain no NaN (C118_refuted_strength).  The balanced MTS law
    passes a NaN on (C118_km_stress).

27. On a device a solve that does not converge is followed by the rest of the update; the returned memory
    can be, entry for entry, that of a converged update for another spin (C67_refuted).
28. The accumulated slip `hist[iHistA_shrEff]` is a running sum in double precision (ECMech_evptn.h:1184).
    When the slip of a step is below 2^-56 of the stored value, the stored value stops growing, for any number
    of such steps (C74_stalls; a witness where the total exceeds every bound is C74_refuted_tracking).  With a
    stored slip of one this concerns steps with less than about 1e-17 of slip, as in long holds that are
    resolved with very small steps; the error stays within 2(N+n+1)u otherwise (C74_error).
29. The residual of the step is scaled with a factor of at most 1e6 dt (ECMech_evptn.h:448-456), so a fixed
    solver tolerance leaves an error of up to N tol/1e6 in the bound of C73: refining the time step at fixed
    tolerance does not drive the bound to zero.
30. The hardening problem is scaled by `max(h, 1)` (ECMech_kinetics.h:99, 207, marked TO_DO there), so its
    tolerance of 1e-10 is absolute when strengths are below one in the chosen unit.  In megabar, with a strength of
    1e-4, an increment of 1e-11 per step passes as converged at the initial guess and the strength never changes,
    however many steps are taken; in pascal the same material hardens (C75_refuted_stress_unit).  All other
    parts of the update are independent of the units of stress and time (C75_units), except for tests of rates
    against the absolute value 1e-90.
    With a linear law a solver that takes one Newton step before it tests for convergence escapes this; the unit
    tests, which expect two evaluations where the initial guess is already exact (hard_voce_nostr), suggest that
    SNLS does so, but its contract as used here does not promise it.  The unit tests (strengths of 1e-3) and the
    Python example (17e-3) themselves work in units in which strengths are below one.
31. test/test_hardening.cxx and test_aniso_hardening.cxx expect the Voce strength to 1e-11, but the tolerance
    1e-10 handed to the solver is absolute for strengths below one, so a solver may report convergence and miss
    the expected value by more (C76_refuted_voce_tolerance); the tests pass only because Newton's last step
    overshoots its tolerance.  Also, `double gdot[nslip] = { 1.0 / nslip }` in these tests sets only the first of
    the twelve rates, so that the effective rate is 1/12 and not one.
32. As a consequence of finding 25 the equations of a step can have no acceptable point: at a hundredth of the
    reference temperature a steady loading at a tenth of the reference rate succeeds up to the edge of flow and
    then must fail, whatever the solver does, for every time step from 1e-20 to 1e-8 with tolerance at most
    1e-4/(3 + 1e-6/dt) (C78_refuted_cold, C78_until).

33. (formerly 21) Driver: the mts branch sets the execution strategy on `mat_modela` (orientation_evolution.cxx:346),
    so the update stays on the CPU whatever device is asked for (C81_refuted_strategy); the NEVALS code reads slot 2,
    the flow strength, instead of 3 (line 460, C81_refuted_nevals).

34. (formerly 17) A zero quaternion is normalised without check; a line of zeros in the driver's orientation file makes
    the first update undefined (C82_zero_quat).

35. (formerly 19) Python: an output array whose elements are not doubles is converted to a temporary, so what `solve`
    writes there is lost without any message (C86_refuted_integers); pyecmech/example-dev.py:135 itself passes integers
    for `sdd` (`np.asarray([0, 0])`).
36. Python: `pyECMechDev::getState` returns the temperature through a `double&`, which pybind11 binds to a temporary; the
    caller's number never changes (C86_refuted_temperature, ecmechpy.cpp:251-264).

37. miniapp/miniapp_script.bash ends with `./orientation_evolution ./option_cuda.txt`; the file is called option_gpu.txt
    (C87_refuted_script).
38. miniapp/props.txt gives stiffness and strength in MPa but specific heat and cold energy in units of GPa, so that
    computed temperature rises are a thousand times too large; with the Voce model nothing else is affected
    (C87_heat, C87_refuted_units).
39. Below 1e-8 of the reference rate of slip the residual is measured against the reference rate, so that the tolerance
    no longer bounds the error relative to the imposed rate: slow loading may be ignored altogether (C92_refuted_slow).
    test_px with KIN_TYPE 1 loads at such a rate; its tolerance leaves two per cent of the stress of the first step open
    while the comparison asks for 1e-10 (C92_refuted_px; for the printed means of the program C110_refuted_digits).  SNLS does better than its contract, so the test passes.
41. The energy of a volume change is taken with the old pressure alone (ECMech_eosSimple.h:184).  Compressing and expanding
    back therefore always loses energy; cycles of one per cent of the volume take the tests' crystal from 300 K below
    absolute zero within 40 cycles, and nothing in the code notices a negative temperature (C93_refuted_test).  The loss
    is of first order in the volume increment (C93_cycle).
42. The work of the shape change is taken with the mean of old and new stress (ECMech_evptn.h:1049-1055, 1215-1218), while
    the slip of the step belongs to the new stress alone.  When the stress changes its sign in a step, the slip is
    credited with work of the wrong sign: the internal energy falls although the slip dissipates.  One long step from
    tension to a smaller compression cools the crystal without bound, and cycles with realistic stresses (1.05 and 0.95
    times the strength) cool by the same amount each (C94_refuted_step, C94_refuted_heat, C94_refuted_cold).
43. With HIP, `memoryManager::allocate` gives device memory (miniapp_util.h:45-48), which the host then fills (init_data,
    setup_vgrad, the zeros of the stress) and which is copied with the direction host to device (orientation_evolution.cxx:
    395-397): undefined unless the machine lets the host use device addresses (C95_refuted_hip).  With CUDA the loop of
    getResponseECM captures the address of the model, a variable of the main program, unless ENABLE_CUDA_WORKAROUND is
    given, which the README does not mention (C95_refuted_cuda).  The strategy set on the wrong object (finding 33) makes
    the host work on device memory even after the first repair (C95_refuted_mts, C95_repaired).
44. pyEvptn_norm initialises neither m_eDevTot nor m_halfVMidDt (ecmech_classes.hpp:77-78) and never assigns the second:
    the energy that getState returns is whatever the memory held (C97_refuted_energy), and with zeroed memory the work of
    the change of shape is missing at every step (C97_refuted_work).  m_eDevTot and m_eNew are added to at each call.
45. The developer's object depends on the order of calls: computeRJ and getState before a successful setup go through a
    null pointer, getState without an evaluation reads uninitialised slip rates (C97_evaluation, C97_state); getState takes
    the slip rates of the point evaluated last, not of its argument (C97_last), and a second call adds the slip of the
    step again (C97_refuted_twice).  After a setup that failed in updateH, the old problem object points to the arrays of
    the failed call: its residual is that of a mixture (C97_failed, C97_refuted_mixture).
46. example-dev.py: solve calls getState of the global variable `prob` instead of `self` (line 62): any other object goes
    through a null pointer or gets the hardness and the slip rates of the global one (C97_refuted_other,
    C97_refuted_stale).  `sol.success` is never looked at (lines 59-62, 150-153): the script prints 41 numbers whatever the
    root finder returns, and 41 zeros for a crystal in tension when it gives up at once (C97_refuted_unchecked,
    C97_refuted_idle).
47. pyECMechDev::setup checks neither the lengths nor the strides of its arrays (ecmechpy.cpp:232-239), unlike
    pyECMech::solve: short arrays are read beyond their end, strided ones element by element in memory
    (C97_refuted_short, C97_refuted_strided).
48. orientation_evolution.cxx:234, 258 do not look at the rest of a line: `168,4` is read as 168, `1.4d-3` as 1.4
    (C103_refuted_rest), although other malformed lines are reported.
49. getResponseECM with OpenMP: an exception of a failed point leaves an iteration of the parallel loop, which OpenMP does
    not define (in practice the program is terminated and no handler of the caller runs), so that the failure cannot be
    handled as with the sequential strategy (C104_refuted_openmp).  On a device the call returns normally (C104_refuted).
50. ECMech_eosSimple.h:81, 103: `1/v - 1` loses digits near v = 1; at small compressions the pressure has an absolute error
    of some roundoffs of the bulk modulus, up to a factor of two of the pressure itself (C105_refuted_relative).
51. logParameters (ECMech_matModelBase.h:61-70) writes parameters with six digits: a model made from its own log differs
    from the original, e.g. in the reference temperature with the shipped parameter file (C106_refuted_log).
22. test/test_aniso_kinetics_VocePL.h getHistInfo describes one entry although nH = nslip: no model with more than one slip
    system can be initialised with this class (C99_refuted_model).  Its getParams leaves out the exponent, like finding 1
    of the class with one strength (C99_refuted_params).
20. The stride constructor's message for the volume ratio names istride_int_eng (ECMech_evptnWrap.h:98; C37_refuted_message).
52. The effective slip rate is flagged as state in the history description, but no update reads it (harmless;
    C108_refuted_minimal).
18. Isothermal temperature slope is 1e-8/cv, a substitute (C21_energy_derivatives_isothermal).
24. KMBalD with HCP (`pOne`, `qOne`): exponents different from one only hit an `assert` (C40_km_assert).
23. The reported small-argument drag derivative differs from the true one by a relative 1e-8 (C30_drag_small).

From reading, not formalised:

40. The code under MORE_DERIVS (VocePL.h:209-276, KMBalD.h:369-600) does not compile when switched on: evalGdots passes
    too few arguments, and in KMBalD the names dgdotw_dmu, dgdotw_dtK and _wrDT are not declared.

## 6. Disagreements between model and code

None known.  The model follows the code where the code departs from the property (section 5).
