{"id": "C01", "title": "Stress and rate notations convert without loss", "statement": "Converting a symmetric tensor to the internal six-component notation and then to the seven-component deviator-plus-pressure notation, and from there back to six Voigt components, returns the original tensor; the six deviatoric components produced always sum to zero on the diagonal and the pressure is minus the mean normal stress.", "quantifier": "For every symmetric 3x3 tensor and every six-component internal vector.", "why_tests_cant": "The domain is a six dimensional continuum; a transposed component or a wrong sqrt factor can cancel on the few tensors a test uses.", "anchors": ["src/ecmech/ECMech_util.h: symmToVecd, symmToVecds, svecToVecd, vecdsToSvecP, svecpToSvec, trace3, traceToVecdsS"]}
{"id": "C02", "title": "Internal notations preserve inner products and norms", "statement": "The inner product of two deviators computed in the five-component notation, and the one computed directly from the seven-component notation, both equal the tensor double contraction; the effective rate is sqrt(2/3) times the tensor norm.", "quantifier": "For every pair of symmetric traceless tensors.", "why_tests_cant": "Work and dissipation are computed from these inner products; tests compare only a handful of numbers with loose tolerances.", "anchors": ["src/ecmech/ECMech_util.h: svecToVecd, vecsInnerSvecDev, vecd_Deff, vecsyadotb, vecNorm"]}
{"id": "C03", "title": "Unit quaternions give proper rotations", "statement": "The tensor made from a unit quaternion is orthogonal with determinant one, and a quaternion and its negative give the same tensor.", "quantifier": "For every unit quaternion.", "why_tests_cant": "Orthogonality is an exact algebraic identity over the whole 3-sphere; sampling cannot exclude a wrong sign in one off-diagonal entry that vanishes on the samples.", "anchors": ["src/ecmech/ECMech_util.h: quat_to_tensor"]}
{"id": "C04", "title": "Composing orientations composes rotations", "statement": "The quaternion composed from a previous orientation and an increment has the tensor equal to the product of the two tensors (previous times increment), norms multiply, so composing unit quaternions gives a unit quaternion, and composition is associative.", "quantifier": "For every pair (triple) of quaternions.", "why_tests_cant": "Order of multiplication errors only show on non-commuting pairs, and the identity is over an 8 dimensional continuum.", "anchors": ["src/ecmech/ECMech_util.h: quat_prod, get_c_quat, quat_to_tensor"]}
{"id": "C05", "title": "Rotation vector to quaternion is the exponential map", "statement": "A rotation vector is always turned into a unit quaternion (also when it is zero or tiny), whose tensor is the rotation about that vector by its length: it fixes the vector and satisfies the Rodrigues formula.", "quantifier": "For every vector in R^3, with the statement about tiny vectors made explicit.", "why_tests_cant": "There is a branch at 1e-90 and transcendental functions on both sides; tests never hit the branch boundary.", "anchors": ["src/ecmech/ECMech_util.h: emap_to_quat, inv_to_quat"]}
{"id": "C06", "title": "The 5x5 rotation matrix rotates tensors", "statement": "Multiplying the five-component notation of a deviator by the 5x5 matrix built from a rotation is the five-component notation of the rotated tensor R A R^T; the 5x5 matrix is orthogonal, and its transpose performs the inverse rotation.", "quantifier": "For every orthogonal 3x3 matrix and every symmetric traceless tensor.", "why_tests_cant": "The 25 entries are written out by hand as polynomials using orthogonality; each entry must hold for all rotations.", "anchors": ["src/ecmech/ECMech_util.h: get_rot_mat_vecd, vecsVMa, vecsVMTa"]}
{"id": "C07", "title": "Stored orientation stays a unit quaternion over any history", "statement": "If the history starts with a non-zero orientation quaternion then after each successful material update the stored quaternion has unit norm and a non-negative inner product with the (normalised) previous one; hence after any finite sequence of successful updates with any inputs it is still a unit quaternion, and neighbouring stored quaternions lie in the same hemisphere.", "quantifier": "For every finite sequence of updates, all inputs, any solver behaviour.", "why_tests_cant": "Quantifies over unbounded call sequences and over every output the nonlinear solver may return.", "anchors": ["src/ecmech/ECMech_evptn.h: getResponseSngl, EvptnUpdstProblem::stateFromX", "src/ecmech/ECMech_util.h: emap_to_quat, get_c_quat, vecsVNormalize"]}
{"id": "C08", "title": "Elastic spin correction is the tensor commutator", "statement": "The 3x5 matrix built from a tensor B, applied to the five-component notation of A, is the axial vector of A B - B A; consequently it is antisymmetric in A and B and vanishes when B is proportional to A.", "quantifier": "For every pair of symmetric tensors.", "why_tests_cant": "Bilinear identity on a 10 dimensional space with hand-written coefficients; a single wrong coefficient is multiplied by small elastic strains and stays below test tolerances.", "anchors": ["src/ecmech/ECMech_util.h: M35_d_AAoB_dA"]}
{"id": "C09", "title": "Derivatives of the orientation parametrisation are exact", "statement": "The reported derivative of the quaternion with respect to the rotation vector is the true derivative of the rotation-vector-to-quaternion map for vectors of length at least 1e-9, is the derivative of the exponential map at zero, and in the series branch differs from the exact derivative by a stated tiny bound; the reported derivative of the rotation tensor with respect to the quaternion is its true derivative.", "quantifier": "For every rotation vector and every quaternion.", "why_tests_cant": "Finite difference tests sample a few points with 1e-6 accuracy and cannot see a wrong branch or a wrong high order term.", "anchors": ["src/ecmech/ECMech_util.h: dquat_demap_T, d_quat_to_tensor, emap_to_quat, quat_to_tensor"]}
{"id": "C10", "title": "Derivatives of rotated vectors are exact", "statement": "The reported derivatives of the lattice-frame deformation rate and spin with respect to rotation components, and of the sample-frame stress with respect to rotation components, are the true derivatives of the corresponding rotation operations; composed with the quaternion derivatives they give the derivative with respect to the rotation increment.", "quantifier": "For every rotation and every vector rotated.", "why_tests_cant": "Hand written polynomials in 9 matrix entries; tests compare Jacobians at one or two states.", "anchors": ["src/ecmech/ECMech_util.h: d_rot_mat_vecd_latop, d_rot_mat_wveccp_latop, d_rot_mat_vecd_smop, eval_d_dxi_impl_quat"]}
{"id": "C11", "title": "The Jacobian handed to the solver is the derivative of the residual", "statement": "At every point where the slip rates are differentiable with the reported derivative and the rotation increment is outside the series branch, the 8x8 Jacobian returned together with the residual is the exact derivative of that residual with respect to the unknowns, including the scaling factors. At a zero rotation increment, where the solver starts, it is the exact derivative of the residual formed with the exact exponential map, and inside the series branch it differs from that derivative by at most 1e-26 times the scaled imposed rates.", "quantifier": "For every material, state, input rate, time step and solver iterate satisfying the stated differentiability hypothesis.", "why_tests_cant": "Wrong blocks degrade convergence but often still converge, so tests that look at converged answers pass.", "anchors": ["src/ecmech/ECMech_evptn.h: EvptnUpdstProblem::computeRJ"]}
{"id": "C12", "title": "Hardening Jacobians are the derivatives of the hardening residuals", "statement": "For a single hardness variable and for several, the Jacobian given to the solver is the derivative of the scaled residual whenever the evolution law reports its true derivative; this includes the linear and nonlinear saturation laws and the dislocation density law.", "quantifier": "For every old state, time step, evolution value and solver iterate (in the domain where the law is defined).", "why_tests_cant": "Same as C11: wrong derivatives only slow the solver.", "anchors": ["src/ecmech/ECMech_kinetics.h: Kinetics_H1Problem::computeRJ, Kinetics_HNProblem::computeRJ", "src/ecmech/ECMech_kinetics_VocePL.h: getSdot1", "src/ecmech/ECMech_kinetics_KMBalD.h: getSdot1", "test/test_aniso_kinetics_VocePL.h: getSdotN"]}
{"id": "C13", "title": "Solved equations do not depend on numerical scaling", "statement": "The residual is zero exactly when the unscaled backward Euler balance equations hold (elastic rate plus plastic rate equals deformation rate in the lattice frame; rotation increment equals dt times lattice spin minus plastic spin plus elastic commutator term), because every scale factor is strictly positive for dt > 0 and positive reference rate; likewise a zero hardening residual is exactly the backward Euler equation.", "quantifier": "For every input with positive time step and positive reference rate.", "why_tests_cant": "The scale factor is chosen by a data dependent branch and min; the equivalence is over all inputs.", "anchors": ["src/ecmech/ECMech_evptn.h: EvptnUpdstProblem ctor, computeRJ", "src/ecmech/ECMech_kinetics.h: getHn, computeRJ"]}
{"id": "C14", "title": "Tangent conversion between notations is exact", "statement": "The 6x6 tangent converted from internal to Voigt notation maps the Voigt strain (with engineering shears when requested) to the Voigt stress exactly as the internal tangent maps the internal notations.", "quantifier": "For every 6x6 matrix and every strain.", "why_tests_cant": "Hand expanded 36-entry linear map; a wrong entry couples components rarely excited in tests.", "anchors": ["src/ecmech/ECMech_util.h: mtan_conv_sd_svec"]}
{"id": "C15", "title": "The consistent tangent is the derivative of the updated stress", "statement": "If a path of solutions of the residual equations is continuous at the imposed deviatoric deformation rate, then it is differentiable there and the reported tangent (deviatoric columns) is the exact derivative of the updated Cauchy stress in the sample frame with respect to the deviatoric strain increment, and the volumetric entry is three times the reported bulk modulus with no volumetric-deviatoric coupling column.", "quantifier": "For every state with an invertible unscaled Jacobian.", "why_tests_cant": "Existing tests compare with finite differences at one state to a few digits.", "anchors": ["src/ecmech/ECMech_evptn.h: computeRJ (tangent part), getResponseSngl", "src/ecmech/ECMech_util.h: qr6x6_pre_mul, d_rot_mat_vecd_smop, d_quat_to_tensor"]}
{"id": "C16", "title": "Slip geometry is orthonormal for every lattice", "statement": "Every slip system of every supplied lattice (FCC, BCC with 12, 24 or 48 systems, HCP for every positive c/a) has unit normal, unit direction and direction orthogonal to normal; hence the consistency check in the geometry setup never fails.", "quantifier": "For every lattice, every slip system and every positive c/a ratio.", "why_tests_cant": "c/a is a continuous user parameter; tests use one value. A mistyped sign would be found only if the check triggers for that value.", "anchors": ["src/ecmech/ECMech_slipgeom.h: SlipGeomFCC, SlipGeomBCC, SlipGeomHCPaBRYcaY1, fillFromMS", "src/ecmech/ECMech_util.h: miller_to_orthog_sngl"]}
{"id": "C17", "title": "Slip system lists are complete and non-redundant", "statement": "No two slip systems of a lattice coincide (up to sign), and each list is closed under the rotations of its crystal class: every crystal symmetry rotation maps each system to a system in the list (up to sign). Each list is exactly the union of its crystallographic families: the cubic ones by Miller indices, the hexagonal one by Miller-Bravais indices for every c/a.", "quantifier": "For every lattice, every positive c/a, every pair of systems and every symmetry rotation.", "why_tests_cant": "A duplicated or missing system produces plausible stresses, only slightly anisotropic in the wrong way.", "anchors": ["src/ecmech/ECMech_slipgeom.h: SlipGeomFCC, SlipGeomBCC, SlipGeomHCPaBRYcaY1"]}
{"id": "C18", "title": "Resolved shear stress and slip-induced rates follow Schmid law", "statement": "The shear stress resolved on a system equals direction . T . normal for the stress tensor T; the plastic deformation rate and spin assembled from slip rates are the symmetric part and the axial vector of the skew part of the sum of rate times direction (x) normal.", "quantifier": "For every stress, every slip rate vector and every set of slip systems.", "why_tests_cant": "Linear maps over 5 and nslip dimensional spaces, sign convention of the axial vector.", "anchors": ["src/ecmech/ECMech_util.h: matToPQ, skewToVeccp, symmToVecd", "src/ecmech/ECMech_slipgeom.h: fillFromMS", "src/ecmech/ECMech_evptn.h: computeRJ"]}
{"id": "C19", "title": "Four-index crystal directions convert correctly", "statement": "Converting a four-index plane and direction gives unit vectors, the normal is perpendicular to the plane spanned by the intercepts of the plane and has the sign of the fourth index, and direction and normal are orthogonal whenever the crystallographic zone law holds.", "quantifier": "For every admissible plane and direction indices and every positive c/a.", "why_tests_cant": "Five branches on which indices vanish; the code comments call the algorithm clunky.", "anchors": ["src/ecmech/ECMech_util.h: m_to_o_dir, miller_to_orthog_sngl"]}
{"id": "C20", "title": "Equation of state basics", "statement": "At the reference volume and zero energy the pressure is zero and the temperature is the reference temperature; pressure strictly decreases with volume at fixed energy for positive bulk modulus; the update adds -dv*p_old to the energy; the reported bulk modulus is never below 1e-5 of the reference one.", "quantifier": "For every parameter set with positive bulk modulus, every volume > 0, every energy and old pressure.", "why_tests_cant": "Universally quantified over states including strongly expanded ones where the floor acts.", "anchors": ["src/ecmech/ECMech_eosSimple.h: EosModelConst::evalPT, evalPTDiff, updateSimple"]}
{"id": "C21", "title": "Equation of state derivatives are consistent", "statement": "Reported derivatives of pressure and temperature with respect to energy are true derivatives (for the isothermal variant temperature slope is a documented non-zero substitute); the reported dp/dv is the derivative of pressure with respect to volume at fixed energy; the two evaluation routines agree; the unfloored bulk modulus is the isentropic one, -v dp/dv along de = -p dv.", "quantifier": "For every parameter set and state with positive volume.", "why_tests_cant": "Derivative identities over a continuum.", "anchors": ["src/ecmech/ECMech_eosSimple.h: evalPT, evalPTDiff, updateSimple"]}
{"id": "C22", "title": "Returned pressure is the equation-of-state pressure (cubic)", "statement": "For cubic materials the pressure slot of the returned stress equals the equation-of-state pressure at the new volume and the explicitly updated energy, independent of elastic strain and orientation; for hexagonal materials it differs exactly by the stated coupling term.", "quantifier": "For every successful update.", "why_tests_cant": "Exact cancellation of J, detV and sqrt3 factors; holds for all volumes.", "anchors": ["src/ecmech/ECMech_evptn.h: ThermoElastNCubic::eval, ThermoElastNHexag::eval, elastNEtoC, getResponseSngl", "src/ecmech/ECMech_util.h: vecdsToSvecP"]}
{"id": "C23", "title": "Energy update is the trapezoidal work", "statement": "The internal energy returned is the old energy minus old pressure times volume increment plus dt times mid-volume times the average of old and new deviatoric stress power; no other input changes it.", "quantifier": "For every successful update.", "why_tests_cant": "A dropped half or a stale stress would be a relative error of one part in the elastic strain.", "anchors": ["src/ecmech/ECMech_evptn.h: getResponseSngl", "src/ecmech/ECMech_eosSimple.h: updateSimple", "src/ecmech/ECMech_util.h: vecsInnerSvecDev"]}
{"id": "C24", "title": "Power-law slip: sign, symmetry and thresholds", "statement": "The power-law slip rate is odd in the resolved stress, has the sign of the stress, is zero at or below the lower threshold, equals reference rate times (|tau|/g)^(1/m) in the active range, and stress times rate is non-negative.", "quantifier": "For every stress, strength > 0, reference rate > 0 and rate sensitivity > 0.", "why_tests_cant": "Three branches with extreme thresholds (1e-60^m, 1e60^m).", "anchors": ["src/ecmech/ECMech_kinetics_VocePL.h: setParams, evalGdot, evalGdots"]}
{"id": "C25", "title": "Power-law slip derivatives are exact in the active range", "statement": "Strictly between the thresholds the reported derivatives with respect to stress and strength are the true derivatives, and the stress derivative is positive; strictly below the lower threshold they are the true derivative zero.", "quantifier": "For every stress strictly inside a branch, all parameters.", "why_tests_cant": "Finite differences cannot separate a wrong exponent from round-off at these magnitudes.", "anchors": ["src/ecmech/ECMech_kinetics_VocePL.h: evalGdot"]}
{"id": "C26", "title": "Power-law slip rate is monotone in stress", "statement": "A larger resolved shear stress never gives a smaller slip rate.", "quantifier": "For every pair of stresses.", "why_tests_cant": "The violation, if any, sits at ratio 1e60^m, which no test reaches.", "anchors": ["src/ecmech/ECMech_kinetics_VocePL.h: evalGdot"]}
{"id": "C27", "title": "Saturation hardening stays between old strength and saturation", "statement": "With linear saturation hardening the implicit update has a unique solution and it lies between the old strength and the saturation strength, moving towards saturation monotonically in time step; if the saturation strength is not above the initial strength, or there is no slip, the strength is unchanged.", "quantifier": "For every non-negative time step, slip rates, old strength and parameters with non-negative hardening rate.", "why_tests_cant": "Statement about solutions of an implicit equation for all step sizes including huge ones.", "anchors": ["src/ecmech/ECMech_kinetics_VocePL.h: getEvolVals, getSdot1, updateH", "src/ecmech/ECMech_kinetics.h: Kinetics_H1Problem, updateH1"]}
{"id": "C28", "title": "Thermally activated slip never opposes stress", "statement": "For the balanced dislocation kinetics, slip rate is odd in the resolved stress, has the sign of stress or is zero, is zero when the stress is not above the athermal threshold, and stress times rate is non-negative; all internal divisions are by non-zero values.", "quantifier": "For every stress and every admissible parameter set (positive rates, barrier, drag, exponents).", "why_tests_cant": "Many nested early returns; difference of two exponentials whose sign must be shown for all parameters.", "anchors": ["src/ecmech/ECMech_kinetics_KMBalD.h: evalGdot, get_mts_dG"]}
{"id": "C29", "title": "Drag limit bounds the slip rate", "statement": "The magnitude of the dislocation slip rate never exceeds the drag-limited rate nor the drag reference rate.", "quantifier": "For every stress and admissible parameter set.", "why_tests_cant": "A bound for all stresses.", "anchors": ["src/ecmech/ECMech_kinetics_KMBalD.h: evalGdot"]}
{"id": "C30", "title": "Reported stress derivative of dislocation slip is the true derivative", "statement": "In the interior of each branch the reported derivative of slip rate with respect to stress is the derivative of the slip rate. At a small overstress, where the code replaces the exponential of the drag law by its argument, the reported derivative is off by a relative error below 1e-8, and how far off is stated.", "quantifier": "For every stress in the interior of a branch.", "why_tests_cant": "The balancing term that carries the doubtful sign is tiny at test conditions.", "anchors": ["src/ecmech/ECMech_kinetics_KMBalD.h: evalGdot, get_mts_dG"]}
{"id": "C31", "title": "Dislocation density stays positive and evolves towards its fixed point", "statement": "The updated dislocation density is strictly positive for any input; with zero slip it is unchanged (up to the floor); the implicit update has exactly one solution, which lies between the old density and the steady-state density.", "quantifier": "For every old density, time step >= 0, slip rates and admissible parameters, any solver result.", "why_tests_cant": "Quantifies over all solver outputs and step sizes.", "anchors": ["src/ecmech/ECMech_kinetics_KMBalD.h: updateH, getEvolVals, getSdot1", "src/ecmech/ECMech_kinetics.h: updateH1"]}
{"id": "C32", "title": "Plastic dissipation is non-negative and accumulated shear never decreases", "statement": "In each successful update the plastic dissipation and effective slip rate are non-negative; over any sequence of successful updates with non-negative time steps the accumulated shear in the history never decreases and equals its initial value plus the sum of dt times effective rate.", "quantifier": "For every finite sequence of updates, every kinetics whose rate never opposes stress.", "why_tests_cant": "Unbounded histories.", "anchors": ["src/ecmech/ECMech_evptn.h: computeRJ, getResponseSngl"]}
{"id": "C33", "title": "Frame indifference", "statement": "Rotating all sample-frame inputs (deformation rate, spin, stress, lattice orientation) by one rotation gives the same scalars (energy, temperature, strengths, slip rates, elastic strain, pressure) and the rotated stress and orientation.", "quantifier": "For every rotation and every input.", "why_tests_cant": "Needs the whole update to commute with an arbitrary rotation.", "anchors": ["src/ecmech/ECMech_evptn.h: getResponseSngl, computeRJ", "src/ecmech/ECMech_util.h: get_rot_mat_vecd, quat_prod"]}
{"id": "C34", "title": "No loading means no change; rigid rotation is integrated exactly", "statement": "With zero elastic strain and no deviatoric rate the unstressed state solves the balance equations: no slip and zero deviatoric stress (cubic), and the rotation increment solving them is exactly dt times the lattice spin, so the lattice is rotated by the exponential of the spin.", "quantifier": "For every spin, time step, orientation and kinetics with zero rate at zero stress.", "why_tests_cant": "Exactness for all finite rotations, not small ones.", "anchors": ["src/ecmech/ECMech_evptn.h: computeRJ, getResponseSngl"]}
{"id": "C35", "title": "Points in a batch are independent", "statement": "With accepted strides the update of a batch gives each point exactly what a single-point update of its own data gives, and the result is the same whatever order the points are processed in.", "quantifier": "For every number of points, every accepted stride vector, every processing order.", "why_tests_cant": "Number of orders is factorial; execution strategy on GPU cannot be enumerated.", "anchors": ["src/ecmech/ECMech_evptnWrap.h: getResponseECM"]}
{"id": "C36", "title": "A batch writes only its own windows", "statement": "A batch update never writes padding between points, or anything at or beyond the last point passed; passing zero points changes nothing.", "quantifier": "For every accepted stride vector and number of points.", "why_tests_cant": "Frame property over all memory locations.", "anchors": ["src/ecmech/ECMech_evptnWrap.h: getResponseECM", "src/ecmech/ECMech_evptn.h: getResponseSngl"]}
{"id": "C37", "title": "Stride validation is exact", "statement": "Constructing with custom strides succeeds exactly when there are eight entries and each is at least the documented minimum (7, 3, 4, 1, 7, number of history variables, 1, 2); the default strides satisfy this. The message of a rejection names the first stride that is too small and the length it needs. (Refuted for the volume ratio, whose message names the internal energy.)", "quantifier": "For every stride vector of any length.", "why_tests_cant": "Iff over all vectors.", "anchors": ["src/ecmech/ECMech_evptnWrap.h: matModel constructors", "src/ecmech/ECMech_const.h: istride_*"]}
{"id": "C38", "title": "Asking for the tangent does not change the answer", "statement": "Whether or not a tangent buffer is supplied, the updated stress, energy, history, temperature and moduli are the same.", "quantifier": "For every input, given that the solver leaves the slip rates evaluated at the point it returns.", "why_tests_cant": "The extra evaluation overwrites stored slip rates, so equality depends on the solver contract.", "anchors": ["src/ecmech/ECMech_evptn.h: getResponseSngl, computeRJ"]}
{"id": "C39", "title": "Parameter acceptance is exact", "statement": "Initialisation fails unless there are exactly the model-specific number of real parameters (17, 18, 24, 24, 97), no integer options and at most one string; with those counts a cubic model is accepted exactly for positive bulk modulus, and the hexagonal model exactly for positive bulk modulus, unit rate exponents (others violate an assertion) and an axial ratio that is non-negative (or negligible).", "quantifier": "For every parameter vector, options and strings, for each of the five models.", "why_tests_cant": "Counting identities across four template parameters for vectors of any length and content.", "anchors": ["src/ecmech/ECMech_evptnWrap.h: initFromParams, nParams", "src/ecmech/ECMech_cases.cxx: makeMatModel", "src/ecmech/ECMech_cases.h"]}
{"id": "C40", "title": "Parameters read back are the parameters given", "statement": "Reading the parameters back from an initialised model returns exactly those given; each sub-model (elasticity, slip kinetics, equation of state, slip geometry) writes back the list it was given, so the list can be used to build an equal sub-model. A dislocation density parameter vector whose exponents contradict the template runs into an assert instead of being rejected.", "quantifier": "For every accepted parameter vector.", "why_tests_cant": "Round trip over all parameter values and all templates.", "anchors": ["src/ecmech/ECMech_evptnWrap.h: getParams", "src/ecmech/ECMech_kinetics_VocePL.h: setParams, getParams", "src/ecmech/ECMech_kinetics_KMBalD.h: setParams, getParams", "src/ecmech/ECMech_eosSimple.h: setParams, getParams", "src/ecmech/ECMech_evptn.h: ThermoElastN*::getParams", "src/ecmech/ECMech_slipgeom.h: getParams"]}
{"id": "C41", "title": "History description matches the history layout", "statement": "The number of names, initial values and flags equals the reported number of history variables; the entries describe exactly the slots that the update reads and writes; initial values give zero elastic strain, identity orientation, initial strength and zero slip rates.", "quantifier": "For every model (any number of hardness variables and slip systems).", "why_tests_cant": "Layout offsets for arbitrary nH and nslip.", "anchors": ["src/ecmech/ECMech_evptnWrap.h: initFromParams, getHistInfo, getNumHist", "src/ecmech/ECMech_evptn.h: NumHist, iHist*"]}
{"id": "C42", "title": "Life cycle is enforced", "statement": "Requesting a response before the model is completed fails without touching any array; reference density cannot be read before it is set; history information cannot be read before initialisation.", "quantifier": "For every sequence of API calls.", "why_tests_cant": "Unbounded call sequences.", "anchors": ["src/ecmech/ECMech_evptnWrap.h: getResponseECM, complete, getHistInfo", "src/ecmech/ECMech_matModelBase.h: getRhoRef, isComplete"]}
{"id": "C43", "title": "Model names select the documented model", "statement": "Creating a model by name succeeds exactly for the five documented names, each giving the combination of lattice, kinetics and elasticity it stands for; any other name is an error.", "quantifier": "For every string.", "why_tests_cant": "All strings.", "anchors": ["src/ecmech/ECMech_cases.cxx: makeMatModel"]}
{"id": "C44", "title": "Python model names and parameters are checked", "statement": "The Python constructor succeeds exactly for the seven supported names with a one-dimensional parameter array of the right length (and positive bulk modulus), and selects the matching C++ model; otherwise it raises.", "quantifier": "For every string and parameter array.", "why_tests_cant": "All strings and arrays.", "anchors": ["pyecmech/ecmechpy.cpp: pyECMech"]}
{"id": "C45", "title": "Python solve never reads or writes outside the arrays", "statement": "If the shape checks of the Python solve pass, then every element read or written by the update lies inside the corresponding array.", "quantifier": "For every number of points and every set of arrays.", "why_tests_cant": "Memory safety over all shapes; out of bounds accesses are undefined behaviour that tests may not notice.", "anchors": ["pyecmech/ecmechpy.cpp: check2D_dim, solve", "src/ecmech/ECMech_evptnWrap.h: getResponseECM, default strides"]}
{"id": "C46", "title": "Numeric literals are correct", "statement": "Each square-root constant written as a decimal literal is within 1e-28 of the number it stands for.", "quantifier": "For the ten literals.", "why_tests_cant": "Double precision tests cannot see digits beyond the 16th; one mistyped digit late in the literal is invisible.", "anchors": ["src/ecmech/ECMech_const.h: M_SQRT2 ... M_TWOSQRT3"]}
{"id": "C47", "title": "Elastic law is the documented crystal elasticity", "statement": "The diagonal internal stiffness applied to the internal strain equals the Voigt stiffness matrix of the crystal class (cubic c11,c12,c44; hexagonal c11,c12,c13,c33,c44) applied to the tensor (deviatoric response, bulk modulus and coupling); the stiffness is positive definite on deviators exactly for stable constants.", "quantifier": "For every elastic constant set and every strain.", "why_tests_cant": "Linear-algebra identity over constants and strains.", "anchors": ["src/ecmech/ECMech_evptn.h: ThermoElastNCubic::setParams/eval, ThermoElastNHexag::setParams/eval"]}
{"id": "C48", "title": "Temperature output is the end-of-step temperature", "statement": "The temperature returned corresponds to the returned energy at the end of the step.", "quantifier": "For every update.", "why_tests_cant": "Temperature increments are tiny in tests.", "anchors": ["src/ecmech/ECMech_evptn.h: getResponseSngl", "src/ecmech/ECMech_matModelBase.h: getResponseECM documentation (tkelvV)"]}
{"id": "C49", "title": "Array indexing cannot overflow", "statement": "The element offset of point i in each array is stride times i for every point index that fits the interface type.", "quantifier": "For every accepted stride and every point index representable as int.", "why_tests_cant": "Needs more than 2^31 elements to observe.", "anchors": ["src/ecmech/ECMech_evptnWrap.h: getResponseECM"]}
{"id": "C50", "title": "Driver kinematics decomposition is consistent", "statement": "The example driver turns a velocity gradient into deviatoric rate, volumetric rate and spin that reassemble to the velocity gradient, with volume ratio and increments consistent with the documented definitions; its stress conversion to the seven-component form and back is the identity.", "quantifier": "For every velocity gradient, stress, time step and volume.", "why_tests_cant": "Continuum domain.", "anchors": ["miniapp/setup_kernels.cxx: setup_data_cpu", "miniapp/retrieve_kernels.cxx: retrieve_data_cpu"]}
{"id": "C51", "title": "Driver initialises the whole history", "statement": "The example driver initialises each history slot that the model describes, for every number of hardness variables.", "quantifier": "For every number of hardness variables and slip systems.", "why_tests_cant": "The shipped models have one hardness variable, so tests cannot exercise more.", "anchors": ["miniapp/setup_kernels.cxx: init_data_cpu"]}
{"id": "C52", "title": "Developer Python binding accepts the documented parameters", "statement": "The single-point Python binding accepts exactly the parameter list of the corresponding batch model.", "quantifier": "For every model and parameter vector.", "why_tests_cant": "Counting identity over templates.", "anchors": ["pyecmech/ecmech_classes.hpp: pyEvptn_norm"]}
{"id": "C53", "title": "Stress is determined by the returned state", "statement": "The returned stress is recomputable from the returned history (elastic strain and orientation), the new volume, the updated energy and pressure: it is the elastic law evaluated at the stored elastic strain and rotated by the stored orientation (either sign of the quaternion).", "quantifier": "For every successful update.", "why_tests_cant": "Restart consistency over all states.", "anchors": ["src/ecmech/ECMech_evptn.h: getResponseSngl, stateFromX, elastNEtoC"]}
{"id": "C54", "title": "Flow strength output is work conjugate", "statement": "When the effective deformation rate is above the threshold, flow strength times effective deformation rate is the plastic dissipation rate per current volume; otherwise it is the hardness scale.", "quantifier": "For every successful update.", "why_tests_cant": "Two branches at 1e-90.", "anchors": ["src/ecmech/ECMech_evptn.h: getResponseSngl"]}
{"id": "C55", "title": "Crystal symmetry of the response", "statement": "Replacing the lattice orientation by a crystallographically equivalent one, with state permuted accordingly, solves the same equations and gives the same stress for cubic materials with equal-strength systems.", "quantifier": "For every cubic symmetry rotation and every input.", "why_tests_cant": "24 symmetry operations times a continuum of states.", "anchors": ["src/ecmech/ECMech_evptn.h: computeRJ", "src/ecmech/ECMech_slipgeom.h: SlipGeomFCC, SlipGeomBCC"]}
{"id": "C56", "title": "Matrix helpers compute the advertised products", "statement": "Each small matrix and vector helper computes the matrix expression in its name for every size (sum, product, transpose product, outer product, symmetric and skew parts, norm) and writes only its output.", "quantifier": "For all sizes and all inputs.", "why_tests_cant": "Templates instantiated at sizes not covered by tests; row-major index macros.", "anchors": ["src/ecmech/ECMech_util.h: vecs*"]}
{"id": "C57", "title": "A failed step leaves the state untouched", "statement": "If the update fails because the solver does not converge or the tangent system is singular, stress, energy, history, moduli and tangent are as before; the only array element that may have changed is the temperature.", "quantifier": "For every input and solver behaviour.", "why_tests_cant": "Failure paths are not exercised by tests; callers rely on it to cut the time step.", "anchors": ["src/ecmech/ECMech_evptn.h: getResponseSngl", "src/ecmech/ECMech_kinetics.h: updateH1"]}
{"id": "C58", "title": "Non-state history entries never influence the result", "statement": "History entries flagged as not being state (flow strength, evaluation count), the volumetric rate entries of the rate and volume arrays, and the previous effective rate are never read: changing them on input changes no other output.", "quantifier": "For every input pair differing only in those entries.", "why_tests_cant": "Non-interference is a two-run property over all inputs.", "anchors": ["src/ecmech/ECMech_evptn.h: getResponseSngl", "src/ecmech/ECMech_evptnWrap.h: initFromParams (state flags)"]}
{"id": "C59", "title": "Spin and slip sign conventions agree", "statement": "With the documented spin convention, a velocity gradient that is pure slip on one system (L equal to rate times direction (x) normal in the current lattice) leaves the lattice orientation and elastic strain stationary: the balance equations are solved by no rotation increment and no elastic increment.", "quantifier": "For every orientation, slip system and rate carried by the kinetics at the current stress.", "why_tests_cant": "A sign mismatch between spin convention and slip spin gives a plausible but wrong texture.", "anchors": ["src/ecmech/ECMech_evptn.h: computeRJ", "src/ecmech/ECMech_slipgeom.h: fillFromMS", "src/ecmech/ECMech_util.h: matToPQ, get_rot_mat_vecd", "src/ecmech/ECMech_matModelBase.h: spinV documentation"]}
{"id": "C60", "title": "The single-point and the batch Python bindings pass the same data", "statement": "The single-point binding builds the same update problem (same old state, rates, updated hardness, pressure and temperature) as the batch update.", "quantifier": "For every input.", "why_tests_cant": "Two code paths duplicated by hand.", "anchors": ["pyecmech/ecmech_classes.hpp: pyEvptn_norm::setup", "src/ecmech/ECMech_evptn.h: getResponseSngl"]}
{"id": "C61", "title": "Parallel evaluation of a batch gives the serial result under every interleaving", "statement": "The point updates of one batch call only touch their own windows of the arrays, so running them as concurrent programs of single reads and writes always terminates, never deadlocks and leaves the memory of the serial loop, whatever the interleaving; an access race cannot occur.", "quantifier": "For every number of points, stride set accepted by the constructor, memory and interleaving of the individual memory accesses.", "why_tests_cant": "The number of interleavings is exponential; races on a device show up only occasionally.", "anchors": ["src/ecmech/ECMech_evptnWrap.h: getResponseECM (RAJA loops)", "src/ecmech/ECMech_evptn.h: getResponseSngl"]}
{"id": "C62", "title": "The update is free of undefined operations for usable inputs, step after step", "statement": "For a positive volume ratio, non-zero time step, non-zero temperature, non-zero quaternion and usable parameters one update never divides by zero, takes a logarithm or root outside its domain or hits an assert; a successful update leaves a state that is usable again, so this carries over to any history. For the power-law kinetics this needs the strength to exceed the solver tolerance.", "quantifier": "For every material of the two kinetics classes, every solver, every input and every number of steps.", "why_tests_cant": "Undefined operations occur in corners of the state space (tiny strengths, extreme rates).", "anchors": ["src/ecmech/ECMech_evptn.h: getResponseSngl", "src/ecmech/ECMech_kinetics_KMBalD.h: getVals, updateH", "src/ecmech/ECMech_kinetics_VocePL.h: getVals, updateH"]}
{"id": "C63", "title": "Nonlinear Voce hardening follows its law and relaxes towards saturation", "statement": "The nonlinear variant hardens with rate theta ((sat - h)/(sat - s0))^m gamma, the implicit update has one solution between the old strength and saturation and a successful update is within the tolerance of it, from either side of the saturation strength.", "quantifier": "For every exponent, slip rate, time step and old strength.", "why_tests_cant": "Needs a history in which the saturation strength drops below the strength.", "anchors": ["src/ecmech/ECMech_kinetics_VocePL.h: getSdot1, getEvolVals, updateH"]}
{"id": "C64", "title": "Dislocation density kinetics: slip rates follow the documented law in stress, density and temperature", "statement": "The slip rate of every slip system has the sign of its resolved stress and the magnitude of activated and drag limited glide in series, with reference rates gam_wo/sqrt(rho) and gam_ro rho, strength go + s sqrt(rho) split from the Peierls part as selected by the template, barrier c1 mu/T, exponents p and q and the power law of the reference temperature, up to the code's cut-offs (relative 1e-8, absolute 1.1e-59 reference rates). The reported hardness is the mean family strength and the reference rate the sum of both rates.", "quantifier": "For every parameter set, density, resolved stress and every temperature from half the reference temperature on.", "why_tests_cant": "The law has many branches selected by magnitude cut-offs; agreement has to hold on all of them.", "anchors": ["src/ecmech/ECMech_kinetics_KMBalD.h: getVals, evalGdot, get_mts_dG"]}
{"id": "C65", "title": "Dislocation density kinetics: slip rate never falls when the stress rises", "statement": "For two resolved stresses with |t1| <= |t2| at the same state the slip rate magnitude at t1 is at most the one at t2, up to a relative 1e-8.", "quantifier": "For every admissible parameter set, every state and every pair of stresses.", "why_tests_cant": "A drop occurs only at branch boundaries, which samples miss.", "anchors": ["src/ecmech/ECMech_kinetics_KMBalD.h: evalGdot"]}
{"id": "C66", "title": "Returned moduli are those of the material at the new state", "statement": "Every successful update returns the adiabatic bulk modulus -v dp/dv of the equation of state along the energy path of the step (with a floor of 1e-5 of the reference modulus) and a state-independent shear modulus that is the orientation average of the crystal's shear stiffness; both are positive.", "quantifier": "For every material, input and state for which the update succeeds.", "why_tests_cant": "Host codes use the moduli for time step control in every state.", "anchors": ["src/ecmech/ECMech_evptn.h: getResponseSngl, getGmod", "src/ecmech/ECMech_eosSimple.h: updateSimple"]}
{"id": "C67", "title": "A failed update is reported on a device too", "statement": "On a device, an update whose solves did not converge is distinguishable from a successful one by what the caller can read; where nothing failed the device returns exactly what the host returns.", "quantifier": "For every material, input, state and behaviour of the external solvers.", "why_tests_cant": "Needs a solve that fails inside a device kernel; the returned numbers look plausible.", "anchors": ["src/ecmech/ECMech_port.h: ECMECH_FAIL", "src/ecmech/ECMech_evptn.h: getResponseSngl", "src/ecmech/ECMech_kinetics.h: updateH1"]}
{"id": "C68", "title": "Effective plastic rate option", "statement": "Built with USE_DPEFF, the first two history entries are the effective plastic deformation rate sqrt(2/3 D:D) and its time integral; nothing else changes, failures (message and what they leave behind) included; the integral never decreases and is at most the accumulated slip divided by sqrt(3). The history description then names the first two entries after what they hold, and is otherwise (number of entries, initial values, all other entries) the one without the option; no two names of a shipped model coincide. The single-point object of the Python module describes its history, with the option or without it, by the same entries in the same order with other names, again all different.", "quantifier": "For every material, every history of successful updates with non-negative time steps.", "why_tests_cant": "The repository's tests are built without the option; the statement ranges over histories.", "anchors": ["src/ecmech/ECMech_evptn.h: computeRJ (ECMECH_USE_DPEFF)", "cmake/ECMechOptions.cmake: USE_DPEFF", "src/ecmech/ECMech_evptnWrap.h: initFromParams (ECMECH_USE_DPEFF)", "pyecmech/ecmech_classes.hpp:143-177"]}
{"id": "C69", "title": "Stability for every time step", "statement": "Whatever the time step, an update cannot make the elastic strain grow (measured by the elastic energy, from the strain without shear stress) by more than the imposed deformation and the solver tolerance supply; with no imposed shape change it cannot grow beyond the tolerance. The same over any sequence of updates.", "quantifier": "For every material with stable cubic or hexagonal elasticity and kinetics that do not oppose the stress, every time step, input and history, every solver keeping its contract.", "why_tests_cant": "Ranges over all time steps and histories; tests run a few fixed step sizes.", "anchors": ["src/ecmech/ECMech_evptn.h: computeRJ, getResponseSngl"]}
{"id": "C70", "title": "Elastic strain independent of the solver's path", "statement": "Two converged updates from the same memory and inputs, found by different solvers, differ in elastic strain by no more than the difference of the returned lattice orientations and the tolerance allow; with exact solves and equal orientations strain, stress, slip rates and energy are equal.", "quantifier": "For every stable cubic or hexagonal material with monotone slip kinetics, all inputs and states, every pair of solvers keeping their contract.", "why_tests_cant": "Compares all possible solver paths; a test sees one.", "anchors": ["src/ecmech/ECMech_evptn.h: computeRJ, getResponseSngl", "src/ecmech/ECMech_kinetics_VocePL.h: evalGdot"]}
{"id": "C71", "title": "Rounding does not make the stored quaternion drift", "statement": "In floating-point arithmetic with gradual underflow, after any number of steps the length of the stored quaternion is within 46 units of roundoff of one, whatever the rotation increments; one step differs from the exact product by at most (46 + 10 |increment|) roundoffs plus 1e-89; over k steps the orientation error grows at most linearly in k.", "quantifier": "For every arithmetic with roundoff at most 1e-6 whose results do not overflow (double precision is one), every initial quaternion of length between 1e-91 and 1e100, every sequence of increments and every number of steps.", "why_tests_cant": "Drift only shows after very many steps, and only for particular sequences of rounding errors.", "anchors": ["src/ecmech/ECMech_evptn.h: getResponseSngl (normalisation at the start of the step), stateFromX", "src/ecmech/ECMech_util.h: vecsVNormalize, emap_to_quat, quat_prod"]}
{"id": "C72", "title": "The equations of a step always have a solution", "statement": "For stable elasticity and continuous slip laws that rise with the stress, the backward Euler equations of a material update have a solution for every step length. With the code's own power law, including both of its thresholds, and its own exponential map, a point with a residual below n 1e-51 exists unless the power supplied reaches the cut-off of the law at 1e60 reference rates; an update without tangent then succeeds for every solver that finds an acceptable point when there is one.", "quantifier": "For every step length, imposed rate, spin, elastic strain, orientation, set of slip systems, cubic or hexagonal stable elasticity, rate exponent, and tolerance above the bound.", "why_tests_cant": "A failed solve in a test does not tell whether the equations or the solver are at fault, and no finite set of steps shows that large steps are solvable.", "anchors": ["src/ecmech/ECMech_evptn.h: computeRJ, getResponseSngl", "src/ecmech/ECMech_kinetics_VocePL.h: evalGdot"]}
{"id": "C73", "title": "Convergence to the rate equations of the crystal as the time step goes to zero", "statement": "Over a fixed time interval, N updates of equal length give elastic strains, lattice rotations and strengths that differ from the solution of the rate equations of the crystal by at most a constant times: the initial difference, the time step, the solver tolerance, the distance of the slip law from the exact one, and N times the absolute floors of the code (tol/1e6 from the residual scaling, the hardening solver's tolerance, 1e-88 from the exponential map). The constant does not depend on N, the tolerance or the solver.", "quantifier": "For every cubic material with orthogonal slip systems, every Lipschitz slip and hardening law within given distances of the code's, every Lipschitz imposed motion, every solver keeping its contract, every number of steps beyond a threshold, and all states within given bounds; for the power law with exponent at least one and constant saturation strength without assumptions on the laws, on the computed states or on the exact solution beyond bounds at the start.", "why_tests_cant": "Needs a bound uniform over the number of steps and over all imposed motions, against a solution of differential equations that is not available in closed form; a test compares a few step sizes with each other.", "anchors": ["src/ecmech/ECMech_evptn.h: computeRJ, getResponseSngl", "src/ecmech/ECMech_kinetics_VocePL.h: evalGdot, updateH, getSdot1"]}
{"id": "C74", "title": "The accumulated slip in floating-point arithmetic", "statement": "With rounding after every operation, the stored accumulated slip never decreases, and after N steps it differs from the exact total by at most a relative 2(N+n+1)u apart from underflow, where n is the number of slip systems and u the unit roundoff. It does not follow that it tracks the total: once the slip of a step is below 2^-56 of the stored value, the stored value no longer changes, for any number of steps.", "quantifier": "For every rounding that keeps the order of numbers (first claim), every rounding with relative error u and underflow error eta (second claim), double precision (third claim), every sequence of slip rates and time steps, and every number of steps with (N+n+1)u at most one half.", "why_tests_cant": "The loss shows only after more steps than a test can run or at step sizes no test uses; the bound is over all sequences of slip rates.", "anchors": ["src/ecmech/ECMech_evptn.h: computeRJ, getResponseSngl", "src/ecmech/ECMech_util.h: vecsssumabs"]}
{"id": "C75", "title": "Independence of the units of stress and time", "statement": "If all material parameters and all arguments of an update are converted to other units of stress and time, the outcome is the converted outcome: stresses, energies, moduli and tangent in the new unit of stress, rates in the new unit of time, strains, orientation, temperature and counters unchanged, and the same failures. For the Voce kinetics this needs strengths of at least one in both units; below one it is false, and hardening can be lost altogether.", "quantifier": "For every material with Voce or dislocation density kinetics, every nonlinear solver, every conversion factor, every state and input; a tangent needs a linear solver that is exact or an unchanged unit of time.", "why_tests_cant": "Tests run in one system of units; the dependence shows only at strengths and step sizes that depend on the user's choice of units.", "anchors": ["src/ecmech/ECMech_evptn.h: computeRJ, getResponseSngl, elastNEtoT", "src/ecmech/ECMech_kinetics.h: Kinetics_H1Problem, updateH1", "src/ecmech/ECMech_kinetics_VocePL.h: evalGdot, getSdot1, getEvolVals", "src/ecmech/ECMech_kinetics_KMBalD.h: evalGdot, get_mts_dG, getSdot1, getVals", "src/ecmech/ECMech_eosSimple.h: evalPT, evalPTDiff"]}
{"id": "C76", "title": "Expected values of the hardening unit tests", "statement": "With the data of the unit tests the equation of the hardening step has, in exact arithmetic, one solution up to the saturation strength, and it agrees with the expected value stored in the test to its last digit (1e-15): linear and nonlinear Voce hardening, one strength or one per slip system, and no strengthening. For the dislocation density every solver that keeps its contract gives the expected value to 1e-10. For Voce hardening the contract gives only 1.01e-10, which is not enough for the tolerance 1e-11 of the test.", "quantifier": "For every strength or density that solves the step; for every nonlinear solver that keeps its contract.", "why_tests_cant": "The expected values were recorded from a run; a test cannot tell whether they are the values of the law.", "anchors": ["test/test_hardening.cxx: hard_voce_a, hard_voce_nostr, hard_kmbaldfff_a", "test/test_aniso_hardening.cxx: hard_voce_a, hard_voce_nostr", "src/ecmech/ECMech_kinetics.h: updateH1", "src/ecmech/ECMech_kinetics_VocePL.h: getSdot1, getEvolVals", "src/ecmech/ECMech_kinetics_KMBalD.h: updateH, getSdot1, getEvolVals"]}
{"id": "C77", "title": "Expected values of the one-step unit tests", "statement": "With the data of the unit tests of one material update the equations of the step have an exact solution, and an update that finds it meets the comparisons of the tests: axial elastic strain to 1e-10, first orientation component to 1e-8, slip rate to 1e-8. This holds for power-law kinetics in FCC and for dislocation kinetics in FCC, BCC (12 systems) and HCP. With tolerance zero and power-law kinetics, every solver that claims convergence only at a solution meets the comparisons if it ends at the orientation of the test.", "quantifier": "For every tolerance that is not negative, every incoming temperature and every incoming extra outputs (both are uninitialised in the test); uniqueness for every solver that keeps its contract.", "why_tests_cant": "The expected values were recorded from a run of the code; a test cannot tell whether they are the values of the equations.", "anchors": ["test/test_evptn.cxx: evptn_a", "test/test_updst.cxx: updst_a", "test/test_expectedVals.h: expectedE2, expectedQ1, expectedGdotVal", "src/ecmech/ECMech_evptn.h: getResponseSngl, computeRJ", "src/ecmech/ECMech_kinetics_KMBalD.h: evalGdot, getVals", "src/ecmech/ECMech_kinetics_VocePL.h: evalGdot", "src/ecmech/ECMech_slipgeom.h: SlipGeomFCC, SlipGeomBCC, SlipGeomHCPaBRYcaY1"]}
{"id": "C78", "title": "Loading up to the edge of flow with dislocation kinetics in the cold", "statement": "Expected: a steady loading at a moderate rate can be continued with small enough time steps. This is false for dislocation kinetics well below the reference temperature: for every series of solvers that keep their contract, the number N of successful updates of size dt satisfies N dt < 1e-3, because the slip rate jumps from zero to a value above the loading rate. Up to N dt = 88e-5 the loading can succeed.", "quantifier": "For every solver that claims convergence only where the residual is below the tolerance, every time step between 1e-20 and 1e-8, every number of steps, every tolerance with tol (3 + 1e-6/dt) <= 1e-4 (tolerance 1e-10: every time step from 2e-12 on).", "why_tests_cant": "A test sees the failure of one solver with one time step and cannot tell whether another solver or a smaller step would have succeeded.", "anchors": ["src/ecmech/ECMech_kinetics_KMBalD.h: evalGdot", "src/ecmech/ECMech_evptn.h: computeRJ, getResponseSngl"]}
{"id": "C79", "title": "The whole result of a short step is determined by its equations", "statement": "Two updates from the same memory with the same inputs, made with different solvers, give the same hardening state, and lattice orientations, elastic strains and slip rates that agree up to what the tolerance allows, if the step is short on the scale of the imposed rate and spin. How short depends on the slip systems, the elastic anisotropy and the stored elastic strain but not on the slip law, which may be arbitrarily steep. With exact equations there is exactly one solution.", "quantifier": "For every pair of solvers that claim convergence only where the residual is below the tolerance, every set of slip systems, stable cubic or hexagonal elasticity, both kinetics, every state and input with a step short enough.", "why_tests_cant": "A test runs one solver from one starting point; it cannot show that no second solution exists, nor that stiffness of the law does not matter.", "anchors": ["src/ecmech/ECMech_evptn.h: computeRJ, getResponseSngl", "src/ecmech/ECMech_slipgeom.h: fillFromMS", "src/ecmech/ECMech_kinetics_VocePL.h: evalGdot", "src/ecmech/ECMech_kinetics_KMBalD.h: evalGdot"]}
{"id": "C80", "title": "In short steps the Newton matrix is invertible and the tangent exists and is the derivative", "statement": "If the step is short on the scale of the imposed rate and spin, the matrix of the Newton step is invertible at every trial point, for slip laws of any steepness. A short step that succeeds without a tangent succeeds when the tangent is asked for. At a solution the equations with a changed rate have exactly one solution nearby, it varies differentiably, and the returned tangent is the derivative of the stress.", "quantifier": "For every set of slip systems, stable cubic or hexagonal elasticity, every trial point, kinetics that report no negative slope (both kinetics in the parameter ranges stated), every linear solver that solves all regular systems, every state and input with a step short enough.", "why_tests_cant": "A test factors finitely many matrices; whether the determinant vanishes somewhere between them cannot be seen, nor can the existence of a derivative.", "anchors": ["src/ecmech/ECMech_evptn.h: computeRJ, getResponseSngl, provideMTan", "src/ecmech/ECMech_kinetics_VocePL.h: evalGdot", "src/ecmech/ECMech_kinetics_KMBalD.h: evalGdot, get_mts_dG"]}
{"id": "C81", "title": "The example program prints the mean stress of independent single crystals", "statement": "The driver's main program ends well exactly when its files can be read, the material can be built from the parameter file and every crystal by itself can be driven through all steps; what it prints after each step is then the mean of the stresses of these crystals, one for each orientation, started unloaded with the hardness of the parameter file. If it ends with an error, either nothing could be prepared and nothing is printed, or the means of the steps completed by all crystals have been printed. It depends neither on the contents of freshly allocated memory nor on the order of the orientation lines. (Two parts are refuted: the report of evaluation counts and the device on which the second model runs.)", "quantifier": "For every content of the files, every way numbers are extracted from lines, every sequence of random numbers, any number of orientations within the range of int, every solver and linear solver, every content of fresh memory.", "why_tests_cant": "A regression test compares one output file for one texture; it does not tell a mean of independent crystals from one in which points or slots of memory are mixed up, and cannot range over memory contents and texture sizes.", "anchors": ["miniapp/orientation_evolution.cxx: main", "miniapp/setup_kernels.cxx: init_data, setup_vgrad, setup_data", "miniapp/retrieve_kernels.cxx: retrieve_data", "miniapp/material_kernels.cxx: mat_model_kernel", "src/ecmech/ECMech_evptnWrap.h: matModel, getResponseECM"]}
{"id": "C82", "title": "Crystals with power-law slip go through whole histories of loading; the example program reaches its end", "statement": "With solvers that find an acceptable point whenever there is one, no step of a history of a cubic crystal with power-law slip and linear hardening can fail: after any number of steps (up to a thousand million) of any lengths, deformation rates and spins, the next step has a solution, the strength is still positive and the elastic strain is bounded. In particular the example program with the model voce goes through all its sixty steps for every parameter file with admissible values and every set of orientations none of which is the zero quaternion; with a zero quaternion it never does.", "quantifier": "For every cubic material with power-law slip, every history of inputs within reach of the code's rate cut-off, every solver with the stated contract, every linear solver that answers, all parameter and orientation files, all contents of fresh memory.", "why_tests_cant": "A test runs one texture with one parameter set for sixty steps; that no admissible parameter set, orientation or history can bring the update to a failure is a statement about infinitely many runs.", "anchors": ["src/ecmech/ECMech_evptn.h: getResponseSngl, EvptnUpdstProblem", "src/ecmech/ECMech_kinetics_VocePL.h: updateH, evalGdots", "src/ecmech/ECMech_kinetics.h: updateH1", "miniapp/orientation_evolution.cxx: main"]}
{"id": "C83", "title": "Crystals with dislocation kinetics go through whole histories of loading in the warm", "statement": "At temperatures from half the reference temperature up to where the barrier is still at least 35 thermal energies high, the slip law of the code, with all its cut-offs and jumps, is within 2e-22 reference rates of the documented continuous and monotone law. Therefore every step has an acceptable solution, for every step length, deformation rate, spin, strain and stored state; and with solvers that find an acceptable point whenever there is one, no step of a history can fail as long as its temperature is in that window: the density stays between computable bounds and the next update is defined and succeeds.", "quantifier": "For every set of slip systems, every stable elasticity, every set of kinetics parameters in the warm range, every history of inputs, every solver with the stated contract, every step length.", "why_tests_cant": "A solution of the equations could be missing for a single combination of temperature, density, rate and step length (in the cold that is what happens, C78); no set of runs can exclude it.", "anchors": ["src/ecmech/ECMech_kinetics_KMBalD.h: evalGdot, getVals, updateH, getSdot1", "src/ecmech/ECMech_kinetics.h: updateH1", "src/ecmech/ECMech_evptn.h: getResponseSngl, EvptnUpdstProblem"]}
{"id": "C84", "title": "Self-heating cannot carry a crystal out of its temperature window, and the example program with dislocation kinetics reaches its end", "statement": "In a history without volume change the internal energy of a cubic crystal changes by at most the sum over the steps of imposed strain times the largest possible stress, where the stress is bounded by the elastic strain and the elastic strain by what was supplied. If the temperature window in which steps cannot fail is wider than this work divided by the specific heat, then every step of the history succeeds. In particular the example program with proper files for the model mts goes through its 60 steps and prints 60 lines.", "quantifier": "For every cubic crystal with stable elasticity, every set of slip systems, every set of kinetics parameters with a warm window, every isochoric history of deformation rates and spins, every solver with the stated contract; for the program every number of orientations other than zero.", "why_tests_cant": "The temperature is an output that feeds back into the slip law; that no history can heat the crystal beyond a bound is a statement about all histories and parameters.", "anchors": ["src/ecmech/ECMech_evptn.h: getResponseSngl (1059-1068, 1180-1241)", "src/ecmech/ECMech_eosSimple.h: evalPT", "src/ecmech/ECMech_kinetics_KMBalD.h: evalGdot, getVals", "miniapp/orientation_evolution.cxx: main", "miniapp/setup_kernels.cxx: setup_data", "miniapp/retrieve_kernels.cxx: retrieve_data"]}
{"id": "C85", "title": "Crystals yield: the stress stays bounded however long the loading", "statement": "In any stress state some slip system carries a fixed part of the stress (for the FCC and the BCC systems at least 1/sqrt(18), for the HCP systems a part that depends on c/a alone, more than a quarter for c/a between 1.5 and 2; without the c+a systems nothing of a tension along c, and the same with the ratio c/a = 0, which the code accepts). If at a yield stress the slip law gives more slip than the loading and the solver tolerance supply, then in any history the elastic strain falls until it is below what the yield stress carries and never exceeds that again. For power-law slip the yield stress is the strength times the rate ratio to the power of the rate exponent, and cubic crystals go through histories of up to a thousand million steps with a stress bound that does not depend on the accumulated strain. The same holds for any class of elasticity if the elastic strain is measured from the strain without shear stress and the loading includes what that strain moves.", "quantifier": "For every cubic or hexagonal crystal with stable elasticity (the power-law histories: cubic), every axial ratio, every set of slip systems that resolves every stress, every kinetics that never opposes the stress and yields in the stated sense (power law and dislocation kinetics shown), every history of rates, spins, volumes and step lengths, every solver with the stated contract.", "why_tests_cant": "The tests make one or a few steps; that the stress cannot creep upwards over millions of implicit steps with an inexact solver is a statement about all histories.", "anchors": ["src/ecmech/ECMech_slipgeom.h: SlipGeomFCC::setParams (61-100), SlipGeomBCC::setParams (144-293), SlipGeomHCPaBRYcaY1::setParams (333-430)", "src/ecmech/ECMech_evptn.h: EvptnUpdstProblem::computeRJ (385-700), getResponseSngl", "src/ecmech/ECMech_kinetics_VocePL.h: evalGdot", "src/ecmech/ECMech_kinetics_KMBalD.h: evalGdot", "src/ecmech/ECMech_evptn.h: ThermoElastNHexag::eval"]}
{"id": "C86", "title": "The results of the Python binding reach the caller, and the example script prints the response of a crystal", "statement": "A call of pyECMech.solve with output arrays of doubles - the inputs may be of any number type - succeeds exactly when the update of every row does, and the caller then finds in each row of the own arrays the result of the update of that row; the inputs are unchanged. If the call raises an exception, then some row's update failed: the rows before it hold their results, that row holds what the failed update left, the later rows and the inputs are as before. The script pyecmech/example.py prints a list of numbers exactly when 41 successive updates of a copper crystal succeed, and they are the first stress components; with a solver that finds existing solutions it always prints 41 numbers. Outputs into arrays of other element types and the temperature of the single-point binding are lost (refuted).", "quantifier": "For every material of the binding, every number of rows below the 32-bit limit, all arrays contiguous in C order (in numpy's sense, where a dimension of length one may have any stride) or of another element type, every solver; for the script every solver.", "why_tests_cant": "The repository has no test of the bindings; whether results reach the caller depends on the element type of the caller's arrays, which no test varies.", "anchors": ["pyecmech/ecmechpy.hpp: py_darray (11), pyECMech::solve (26-36)", "pyecmech/ecmechpy.cpp: pyECMech::solve (131-163), pyECMechDev::getState (251-264)", "pyecmech/ecmech_pybind11.cpp: solve (63-74), getState (123)", "pyecmech/example.py: ECMechProb.solve (42-53), script (60-122)", "pyecmech/example-dev.py: sdd (121)"]}
{"id": "C87", "title": "The example program runs with the input files that come with it", "statement": "With each of the three option files of the repository the example program reads all its files, goes through its 60 steps and prints 60 lines (OpenMP and GPU files if built with them, otherwise they are refused with a message). For power-law slip the specific heat affects the temperature only. The job script names an option file that does not exist, and props.txt mixes units so that temperature rises are a thousand times too large (both refuted).", "quantifier": "For every solver that finds existing solutions, every sequence of random numbers without four zeros in a row for one orientation, every content of fresh memory; the statement on the specific heat for every material with power-law slip, every update and every factor.", "why_tests_cant": "The miniapp has no test; a run that prints plausible stresses says nothing about other seeds or solvers, and the temperature is never printed, so that the mixed units stay unseen.", "anchors": ["miniapp/option_cpu.txt", "miniapp/option_openmp.txt", "miniapp/option_gpu.txt", "miniapp/rand_quats_cpu.txt, rand_quats_openmp.txt, rand_quats_gpu.txt", "miniapp/props.txt", "miniapp/miniapp_script.bash (last line)", "miniapp/orientation_evolution.cxx: main (152-291)", "src/ecmech/ECMech_eosSimple.h: EosModelConst (42-118)"]}
{"id": "C88", "title": "Rounding errors of the rotation between lattice and sample stay small", "statement": "In floating-point arithmetic the stress handed back is the lattice stress turned by the rotation of the stored quaternion, up to 421 roundoffs of its magnitude in every component (5e-14 in double precision); its first three components add up to zero to the same accuracy. The deformation rate is turned into the lattice with at most 372 roundoffs. Over k steps the stress differs from the one of the exact orientation by at most a bound linear in k.", "quantifier": "For every arithmetic with roundoff at most 1e-6 without overflow (double precision is one), every quaternion within 46 roundoffs of unit length (as kept by the update, C71), every symmetric stress and deviatoric rate of magnitude at most 1e100, every history of increments and every number of steps.", "why_tests_cant": "The 5x5 matrix of products of products amplifies errors depending on the orientation; one of its entries uses the unit length of the quaternion, the others do not, so that tests at a few orientations say nothing about the worst case.", "anchors": ["src/ecmech/ECMech_util.h: quat_to_tensor, get_rot_mat_vecd, vecsVMa, vecsVMTa, vecdsToSvecP", "src/ecmech/ECMech_evptn.h: getResponseSngl (1202-1213), computeRJ (587-597)", "src/ecmech/ECMech_const.h: M_SQRT3, M_SQRT2I, M_SQRT3I, M_SQRT6I, M_SQRT2B3"]}
{"id": "C89", "title": "The slip laws neither overflow nor divide by a vanishing number, at any stress", "statement": "Evaluating the slip rate and both of its derivatives, and the hardening rate and its derivative, no intermediate result exceeds 1e300 and no divisor is below 1e-300, so that the values are those of the formulas and never infinity or NaN.", "quantifier": "For the Voce power law: every resolved shear stress up to 1e200, every strength of at least 1e-50, every xm in [1e-6, 1], reference rate up to 1e50. For the balanced dislocation density law: every resolved shear stress up to 1e250, both template variants of the athermal strength, p in (0,1], q in [1,2], rates, barrier and drag stress in [1e-15, 1e15], barrier over kT up to 1e10. For the hardening laws: every total slip rate and every trial strength (or logarithm of density between -500 and 500).", "why_tests_cant": "Exponentials of 1e60-fold ratios, squares of rates as small as 1e-75 and reciprocals of their squares come close to the limits only in rare combinations of stress and parameters; a Newton search may visit any trial stress, and one NaN spoils the step.", "anchors": ["src/ecmech/ECMech_kinetics_VocePL.h: evalGdot, getEvolVals, getSdot1", "src/ecmech/ECMech_kinetics_KMBalD.h: getVals, get_mts_dG, evalGdot, getEvolVals, getSdot1", "src/ecmech/ECMech_const.h: gam_ratio_min, gam_ratio_ovf, ln_gam_ratio_min, idp_tiny_sqrt, idp_eps_sqrt"]}
{"id": "C90", "title": "Rounding of the residual handed to the solver is bounded, and so is what the solver's tolerance means in exact arithmetic", "statement": "Each component of the residual computed in floating-point arithmetic differs from the exact one by at most an explicit number of roundoffs times the sizes of its terms (24 times elastic strain rate, 68 times the sum of slip rates, 1015 times the imposed rate for the strain part; similar for the rotation part) plus the errors of the slip rates. For the power law these errors are 240 roundoffs of modulus times strain, amplified by the inverse of the rate sensitivity, plus those of pow, exp and log. A computed residual below the tolerance is therefore in exact arithmetic below the tolerance plus these bounds. With the copper parameters of the repository in double precision every component is right to 1e-11.", "quantifier": "For every arithmetic with relative error u up to 1e-6 and gradual underflow and every mathematical library accurate to two roundoffs; every cubic crystal with up to 30 slip systems, every trial point with a rotation increment of at most one half in each component, every stored quaternion of length between 1e-91 and 1e100, data between 1e-20 and 1e20, relative volume between 1/2 and 2, imposed rate not within a thousandth of the threshold at which the scale factor jumps.", "why_tests_cant": "Tests compare against reference values with a relative tolerance of 1e-8 or so at a few points; they do not show that no combination of orientation, stress and rate makes the rounding of the residual larger than the tolerance 1e-10 that the solver has to reach.", "anchors": ["src/ecmech/ECMech_evptn.h: EvptnUpdstProblem::computeRJ, constructor", "src/ecmech/ECMech_kinetics_VocePL.h: evalGdot, setVals", "src/ecmech/ECMech_slipgeom.h: fillFromMS, SlipGeomFCC, SlipGeomBCC", "src/ecmech/ECMech_util.h: vecsMaTb, vecsMsymm, vecsMskew, symmToVecd, M35_d_AAoB_dA, vecsVMa, vecsVMTa"]}
{"id": "C91", "title": "Over whole histories in floating-point arithmetic rounding errors of the elastic strain add up at most linearly", "statement": "For a history of updates in which each starts from the strain and quaternion that the one before stored, and each ends at a point whose residual as computed does not exceed the tolerance, the size (energy norm) of the stored elastic strain after K updates is at most its first value plus, per update, time step times imposed rate, the solver tolerance, rounding errors of the imposed rate and the slip rates, and 75 roundoffs of strain and strain increment. In closed form: (1 + 165 eps)^K times first value plus outside supply, eps being the roundoff times the square root of the elastic anisotropy; nothing has to be assumed about the size of the strain. In double precision the factor stays below 1.001 for a billion updates. The stored quaternion keeps its length to 46 roundoffs throughout.", "quantifier": "For every arithmetic with relative error u up to 1e-6 and gradual underflow, every library accurate to two roundoffs, every number of updates and time steps of any length, every stable cubic crystal with up to 30 slip systems and any slip law that does not oppose the stress, data within the ranges of C90.", "why_tests_cant": "The tests run a few dozen steps with one set of parameters. A slow growth of rounding errors, or their amplification by a large time step or a stiff slip law, would show only after very many steps or in other parameter ranges.", "anchors": ["src/ecmech/ECMech_evptn.h: EvptnUpdstProblem::computeRJ, stateFromX", "src/ecmech/ECMech_evptn.h: getResponseSngl", "src/ecmech/ECMech_util.h: vecsVxa, vecsVapb, get_c_quat"]}
{"id": "C92", "title": "A converged update follows the imposed deformation rate up to the solver tolerance - except at rates below 1e-8 of the reference rate of slip", "statement": "In a converged update the rate of elastic strain plus the rate of slip differs from the imposed deformation rate by at most the tolerance times the larger of the imposed rate and 1e-6 per time step, if the imposed rate is at least 1e-8 of the reference rate of slip; the crystal then cannot stay unchanged. Below that the code measures the residual against the reference rate of slip, and the statement is false: an imposed rate below the tolerance times the reference rate may be ignored altogether, in any number of steps of any lengths. The first step of the polycrystal test with dislocation kinetics is in this range: its tolerance of 1e-10 admits axial stresses from 0.00392 to 0.004, while the test asks for 1e-10.", "quantifier": "Accuracy: for every material, state, time step, deviatoric rate, every solver that keeps its contract. Refutation: for every cubic crystal at rest, every number of steps and every sequence of slow rates and step lengths. Polycrystal test: for every orientation.", "why_tests_cant": "The unit tests of one step load at the reference rate of slip or above 1e-8 of it. In test_px the rate is below 1e-8 of the reference rate of the dislocation kinetics, but the test compares the result of one solver with a number recorded from the same solver.", "anchors": ["src/ecmech/ECMech_evptn.h: EvptnUpdstProblem constructor (epsdot_scale_inv), computeRJ", "src/ecmech/ECMech_evptn.h: getResponseSngl", "src/ecmech/ECMech_const.h: epsdot_scl_nzeff", "src/ecmech/ECMech_kinetics_KMBalD.h: getFixedRefRate", "test/test_px.cxx"]}
{"id": "C93", "title": "Energy of volume changes: the loss of the explicit update is of first order in the steps - but cycles of the volume cool a crystal below absolute zero", "statement": "Over any number of steps the internal energy changes by the work of the deviatoric stress, the work of the warm part of the pressure, the change of the energy stored by compression, and minus a loss K (r - 1 - log r) for every step whose volumes have the ratio r. When the pressure depends on the volume alone, every closed cycle of the volume loses energy, strictly if the volume changed; the loss is at most K times the largest volume change, times the sum of the volume changes, over the squared least volume, so it vanishes as steps get small. The wish that repeated cycles of compression without change of shape conserve the energy is false: the energy follows a recursion that goes below the energy of absolute zero for every amplitude; for the crystal of the tests, 40 cycles of one per cent are enough to go from 300 K to a negative temperature.", "quantifier": "Balance: for every material, every trajectory of any length with handed energy, pressure and volume. Cycles: for every cubic crystal and every path of the volume. Refutation: every cubic crystal at rest for its kinetics, every amplitude, every number of cycles.", "why_tests_cant": "All tests of the repository keep the volume or change it in one direction in a few steps, and none compares energies over a cycle.", "anchors": ["src/ecmech/ECMech_eosSimple.h: updateSimple, EosModelConst::evalPT, evalPTDiff", "src/ecmech/ECMech_evptn.h: getResponseSngl (eNew, eint)"]}
{"id": "C94", "title": "First law for changes of shape: work = stored elastic energy + work on slip, elastic loading is given back - but slip can cool", "statement": "At constant volume, for a cubic crystal, every update changes the internal energy by exactly: the change of the stored elastic energy of the lattice, plus the work of the mean of old and new stress on the slip of the step, plus a term for the turning of the lattice, minus the work on the part of the rate that the solver leaves out. The turning term is at most volume times turning times stress times change of elastic strain; the left out part is at most time step times mean stress times tolerance times reference rate; the work on slip differs from the dissipation at the end of the step by at most half the step times change of stress times rate of slip. The balance sums up over any number of steps, so without slip and turning the energy follows the stored energy up to the tolerance and closed elastic cycles give everything back. The wish that slip never cools is false: a reversal from tension to a smaller compression in one long step lowers the thermal energy below any value although the slip dissipates at the stress that drives it, and cycling the crystal of the tests lowers it by the same amount in every cycle, so its temperature goes below absolute zero.", "quantifier": "Balance: for every cubic material, any kinetics, any trajectory at constant volume, any solver that keeps its contract for the tolerance term. Refutation: for the crystal of the tests without hardening, every tension larger than the compression, every energy per cycle, every bound.", "why_tests_cant": "No test of the repository looks at the internal energy or temperature after a change of shape, and none reverses the load.", "anchors": ["src/ecmech/ECMech_evptn.h: getResponseSngl (eDevTot, halfVMidDt, eNew)", "src/ecmech/ECMech_util.h: vecsInnerSvecDev", "src/ecmech/ECMech_evptn.h: EvptnUpdstProblem::computeRJ, elastNEtoC"]}
{"id": "C95", "title": "The driver only uses memory its processor can reach - except on a GPU with HIP, and with CUDA unless a build option is set", "statement": "In a model where every array lives in host, unified or device memory and every loop runs on the host or on the device, the driver ends well with given output exactly when the reference program of C81 does and, unless there are no orientations, the machine gives what the driver needs: nothing on the CPU or with OpenMP; with CUDA and model voce, that the library was built with the workaround option or that the device reads host memory; with CUDA and mts nothing; with HIP, that the host uses device addresses and that a copy ignores a wrong direction. Otherwise the run is undefined. Every run that ends well has given back each block once, by the right function. So the wish that the driver is sound for every device is false for the builds described in the README. With arrays in host memory and the strategy set on the right model object the HIP program is sound on every machine; the first of the two repairs alone is not enough for mts.", "quantifier": "For every build, machine, set of input files, material of both models, number of orientations, contents of fresh memory, external functions.", "why_tests_cant": "The tests run on the CPU; a GPU test on a machine with a common address space does not see accesses that another machine refuses.", "anchors": ["miniapp/miniapp_util.h: memoryManager::allocate, deallocate, allocate_gpu", "miniapp/orientation_evolution.cxx: main", "miniapp/setup_kernels.cxx: init_data, setup_vgrad, setup_data", "miniapp/retrieve_kernels.cxx: retrieve_data", "src/ecmech/ECMech_evptnWrap.h: getResponseECM (captures of the GPU loop)", "cmake/ECMechOptions.cmake: ENABLE_CUDA_WORKAROUND"]}
{"id": "C96", "title": "In short steps plain Newton iteration on the code's residual and Jacobian always reaches the tolerance", "statement": "Take the textbook Newton iteration, with full steps, no line search and no trust region, as the solver of the crystal update. If the step is short - the imposed strain, the imposed rotation and the elastic stiffness of the slip law over the step are at most 1/32 - then the Newton matrix of the code is regular at every point in reach, each step at least halves what is missing in the equations, and from the code's starting point the update succeeds in at most j+1 evaluations, where 2^j is the ratio between what is missing at the start and half the tolerance; the tangent is returned too. No step is longer than the trust radius the code sets. The power law meets the conditions for every stress below its cut-off. For linear saturation hardening two evaluations are enough.", "quantifier": "For every cubic crystal, set of slip systems, kinetics with bounded slope, history, deformation rate, spin, volume change, tolerance above the stated floor, step size within the bound.", "why_tests_cant": "Tests see some steps converge; that a wrong entry in the residual or the Jacobian never costs convergence has to hold for every state and rate, and a trust-region solver hides small errors.", "anchors": ["src/ecmech/ECMech_evptn.h: EvptnUpdstProblem::computeRJ, getResponseSngl (deltaControl, setupSolver)", "src/ecmech/ECMech_kinetics_VocePL.h: evalGdot", "src/ecmech/ECMech_kinetics.h: Kinetics_H1Problem::computeRJ, updateH1"]}
{"id": "C97", "title": "The developer's Python object gives the results of the batch update when it is called in the documented order - and only then", "statement": "Model pyECMechDev as an object with a state whose member functions may be called in any order. A successful setup makes the object forget every earlier call, apart from two energy members that nothing initialises. After any sequence of calls, the residual can be evaluated exactly when some setup has succeeded, and getState is defined exactly when the residual has been evaluated since the last successful setup. After setup, evaluations and getState - whatever came before - stress, moduli and history are those of the batch update for the point evaluated last and the point returned. ECMechProbDev.solve gives every point the result it would get alone, and example-dev.py prints the same 41 stresses as example.py whenever its root finder goes the way of the solver. What is false: the energy returned can be any number, and with cleared memory it never contains the work of the change of shape; a second getState adds the slip twice; solve for any other object than the global `prob` asks that object for the state; a failed setup leaves a problem mixed from two calls; the script never looks whether a root was found and reports 41 zero stresses for a root finder that gives up; arrays that are too short or strided are not refused.", "quantifier": "For every material, sequence of calls, arguments, initial memory, root finder, number of points, layout of the arrays.", "why_tests_cant": "No test of the repository uses the developer's object; a run of the script shows one order of calls with one root finder and fresh, usually zeroed, memory.", "anchors": ["pyecmech/ecmech_classes.hpp: pyEvptn_norm::setup, computeRJ, getState", "pyecmech/ecmechpy.cpp: pyECMechDev::setup, computeRJ, getState", "pyecmech/example-dev.py: ECMechProbDev.solve, setup, computeRJ, getState", "src/ecmech/ECMech_evptn.h: EvptnUpdstProblem"]}
{"id": "C98", "title": "A cubic crystal pulled along a cube axis does not turn, and its stress settles at the flow stress of the saturated strength", "statement": "An fcc or bcc crystal whose cube axis lies along the third direction (turned about it by any angle), strained elastically along that axis only, is stretched along it at the rate D with no spin. If the solver stays on the axis of unknowns - plain Newton iteration does - each successful update keeps this state and the orientation exactly, the eight slip systems that are not normal to the axis share the slip equally, and the resolved stress obeys one scalar equation, tau' = tau + (c11-c12)/2 dt (sqrt(3/2) D + rho - 4 f(tau')), with |rho| bounded by the tolerance; there is no shear, the lateral stresses are equal and the difference of axial and lateral stress is sqrt 6 tau'/J. However long the step, the update succeeds. Over an endless history the strength approaches the saturation strength and the stress difference approaches sqrt 6 times that times (sqrt(3/2) D/(4 gamma_w))^m, up to the two tolerances of the solvers; with plain Newton iteration for the strength this never leaves the range between its first value and saturation.", "quantifier": "For all elastic constants, slip law parameters, rates, step lengths, tolerances, angles about the axis, elastic strains in the range, and all numbers of steps.", "why_tests_cant": "A test runs one crystal for some dozens of steps and compares with stored numbers; that the orientation is kept exactly, that no step can fail and that the limit is the flow stress of the law concerns every step of an endless run and every choice of parameters.", "anchors": ["src/ecmech/ECMech_evptn.h: EvptnUpdstProblem::computeRJ, elastNEtoT, getResponseSngl", "src/ecmech/ECMech_kinetics_VocePL.h: evalGdots, getSdot1, updateH", "src/ecmech/ECMech_slipgeom.h: SlipGeomFCC, SlipGeomBCC", "src/ecmech/ECMech_evptn.h: ThermoElastNCubic"]}
{"id": "C99", "title": "With one strength per slip system every strength follows its own Voce law with the slip of all systems, and equal strengths give the response of the class with one strength", "statement": "For the kinetics class with one strength per slip system: a successful update (linear hardening) puts every strength within 1e-10 max(h,1) of the solution of its own backward Euler equation, which exists, is unique and lies between the old strength and saturation; two systems with the same initial strength keep their order and their difference shrinks by the factor 1 + dt h0 gamma/(sat - tausi); the strengths are usable exactly when all are positive, and the reference strength is their mean. If the updated strengths are all equal, the whole update ends in the same way as with the class with one strength, with the same stress, energy, temperature, moduli, tangent and history. Parameters are written back unchanged (linear). Refuted: with nonlinear hardening one parameter is lost and reading the vector again goes behind its end; the class describes one history entry instead of nslip, so that no parameters whatever initialise a model built from it.", "quantifier": "For all numbers of slip systems, parameters, strengths, slip rates, step lengths, sound solvers, geometries, elasticities and loadings.", "why_tests_cant": "The tests make one update from equal strengths and look at one entry; they never build a model from the class and never write the parameters back.", "anchors": ["test/test_aniso_kinetics_VocePL.h: KineticsAnisoVocePL::setParams, getParams, getHistInfo, getVals, evalGdots, updateH, getSdotN", "src/ecmech/ECMech_kinetics.h: Kinetics_HNProblem, updateHN", "src/ecmech/ECMech_evptnWrap.h: initFromParams", "test/test_aniso_hardening.cxx: hard_voce_a"]}
{"id": "C100", "title": "A crystal whose state and loading share rotations of its lattice keeps them, and does not turn if the rotations have no common axis", "statement": "Let G be rotations that the lattice does not notice (elasticity and slip systems are mapped to themselves, up to the sense of slip), with no common axis, and let the elastic strain and the imposed deformation rate be unchanged by them and the spin vanish. Then the equations of the update keep the symmetries; every solver that combines Newton and gradient steps in any way, plain Newton included, keeps them; and after any successful step, and any history of such steps of any lengths, the stored quaternion is exactly what it was, the elastic strain and the sample stress are unchanged by G, and slip rates of systems that G takes into each other agree up to sign. This covers cubic crystals (fcc, bcc lists) stretched in any way along their cube axes or pulled along a body diagonal, and hexagonal crystals pulled along their axis, with power-law or dislocation-density kinetics; the deviatoric tensors with these symmetries are exactly the diagonal ones and those of pulling along the axis. With power-law slip a symmetric acceptable point exists for every step length that C72 allows, so solvers that find what there is go through histories of up to a thousand million steps (C82) without turning the crystal.", "quantifier": "For all sets of rotations without common axis, elastic constants, slip kinetics that treat related systems alike, states and loadings with the symmetries, step lengths, numbers of steps, and solvers that keep the symmetries.", "why_tests_cant": "Exact preservation over all symmetric states, loadings, step lengths and solver policies; a test can only see a few orientations to rounding.", "anchors": ["src/ecmech/ECMech_evptn.h: getResponseSngl, EvptnUpdstProblem::computeRJ, ThermoElastNCubic, ThermoElastNHexag", "src/ecmech/ECMech_slipgeom.h: SlipGeomFCC, SlipGeomBCC, SlipGeomHCPaBRYcaY1", "src/ecmech/ECMech_kinetics_VocePL.h: KineticsVocePL::evalGdot", "src/ecmech/ECMech_kinetics_KMBalD.h: KineticsKMBalD::evalGdot"]}
{"id": "C101", "title": "Frame indifference of the update together with its tangent", "statement": "The tangent is a fourth-order tensor of the material: an observer turned by any rotation, who gives the turned deformation rate, spin, orientation and stress, gets the same failure or, on success, the same scalars, the turned stress and orientation, and the tangent that gives the turned stress increment for the turned strain increment. This holds for every nonlinear solver and every linear solver that meets its contract (C15) and whose success depends on the matrix alone, although the right-hand sides and the chain rule through the rotation increment differ between the observers.", "quantifier": "For all materials, states, inputs with deviatoric deformation rate, rotations of the observer, nonlinear solvers, linear solvers meeting the contract, with or without the tangent, successful or not.", "why_tests_cant": "A tangent can be compared for a few rotations to rounding only; the statement covers every rotation, state and solver.", "anchors": ["src/ecmech/ECMech_evptn.h: EvptnUpdstProblem::provideMTan, getResponseSngl", "src/ecmech/ECMech_util.h: mtan_conv_sd_svec, eval_d_dxi_impl_quat, d_rotmat_vecd_latop"]}
{"id": "C102", "title": "Crystal symmetry of the Newton matrix, the iteration and the tangent", "statement": "Describing the lattice by a crystallographically equivalent orientation turns the Newton matrix of the state update with the unknowns: its determinant does not change, plain Newton iteration and every iteration that combines Newton and gradient steps by lengths and angles visit the turned points with the same number of evaluations, and the tangent comes out the same. With plain Newton iteration the whole update of the turned state, tangent included, is the turned update: the same failure, or the same stress, tangent, energy, temperature, moduli, strength and rates, with elastic strain, orientation and slip rates in turned axes.", "quantifier": "For every symmetry rotation of the lattice, every state and input, every linear solver meeting its contract, with or without tangent, successful or not. Trial points with a rotation increment of length up to 1e-90 other than zero, which the code rounds, are excluded.", "why_tests_cant": "24 rotations times a continuum of states; agreement of two runs to rounding says nothing about the order in which points are visited elsewhere.", "anchors": ["src/ecmech/ECMech_evptn.h: EvptnUpdstProblem::computeRJ, EvptnUpdstProblem::provideMTan, getResponseSngl", "src/ecmech/ECMech_util.h: mtan_conv_sd_svec, eval_d_dxi_impl_quat, d_rotmat_vecd_latop, M35_d_AAoB_dA"]}
{"id": "C103", "title": "Numbers in the input files are read with their values", "statement": "The lines of the parameter and orientation files are read with the values that stand there in decimal notation (sign, digits with a point anywhere, exponent), whatever white space surrounds them: files in which parameters and orientations are written in this way are the files of a run with exactly these parameters and orientations. Nothing is accepted that does not begin with such a number. (Refuted for the rest of a line: text after the numbers is not looked at, so that a decimal comma or an exponent written with d changes the value silently instead of being reported as malformed.)", "quantifier": "For all notations of all lengths, all white space, all files.", "why_tests_cant": "The repository contains a handful of numbers; the notations are infinitely many, and a reader that loses a digit or mixes up two of four numbers can pass on quaternions such as 1 0 0 0.", "anchors": ["miniapp/orientation_evolution.cxx: main"]}
{"id": "C104", "title": "The execution strategies give the same results - but they fail differently", "statement": "If the update of every point of a batch succeeds, the call returns with the same arrays, without printing anything, for every execution strategy, every build and every order of the points; strategies that are not built in fall back on the sequential loop. If some updates fail: sequentially the call throws the message of the first one, points before it are updated, points after it untouched; on a device the call returns, every point holds the result of its own device update, and a point prints nothing exactly when its update succeeds on the host, in which case it holds the host's result. (Refuted: with OpenMP one failing point makes the behaviour of the call undefined, because the exception leaves an iteration of the parallel loop; on a device a caller who does not read the output takes arrays of failed points for results.)", "quantifier": "For all batches with accepted strides and sufficient arrays, all orders, all strategies and builds, all external solvers, all kinetics whose device version agrees with the host version (Voce and dislocation density: C67).", "why_tests_cant": "The tests run the sequential strategy with points that all converge; devices and OpenMP with failing points are never run.", "anchors": ["src/ecmech/ECMech_evptnWrap.h: getResponseECM", "src/ecmech/ECMech_port.h: ECMECH_FAIL", "src/ecmech/ECMech_const.h: ExecutionStrategy"]}
{"id": "C105", "title": "Equation of state and energy balance in floating-point arithmetic", "statement": "With every operation rounded, the pressure differs from the exact law by at most (5.1 K + 2.1 G) roundoffs (K size of the bulk modulus, G of the thermal part), the temperature by 3.1 (E + Z) C roundoffs plus C times the error of the stored energy, the bulk modulus by 6.1 (K + G) roundoffs, the energy of one step by 2.1 E + 3.1 P + 190 T A roundoffs; over N steps the stored energy stays within N times that of the initial energy plus the work of the stored stresses. With any order-preserving rounding the pressure does not grow with the volume, pressure and temperature do not fall when energy is added, the reference state gives exactly zero pressure and the reference temperature; the bulk modulus handed back is positive. Without rounding all of this is the update of the model. (Refuted: the pressure has no small relative error; at the largest double below one as volume ratio it is almost twice the exact value.)", "quantifier": "For all roundings with relative error up to 1e-6 and gradual underflow (double precision among them), all parameters of the stated sizes, volume ratios from 1/2 (to 2 for the bulk modulus), all histories of stress, rate and volume and all numbers of steps.", "why_tests_cant": "Tests compare a few numbers to a tolerance; drift of the energy over long histories and the loss of digits of 1/v - 1 near v = 1 do not appear in them.", "anchors": ["src/ecmech/ECMech_eosSimple.h: evalPT, evalPTDiff, evalT, updateSimple", "src/ecmech/ECMech_util.h: vecsInnerSvecDev", "src/ecmech/ECMech_evptn.h: getResponseSngl (halfVMidDt, eDevTot, eNew)"]}
{"id": "C106", "title": "What the code writes: numbers, the lines of the example program, the log of the parameters", "statement": "Every number that is written is a decimal notation that reads back to within half a unit of its last digit (5e-6 of its size with the default six digits), exactly if it has no more than six significant digits; integers are written exactly and with their sign. A run of the example program that reaches its end writes 66 lines; the line of each step has the number of the step and six numbers that are read back, one after the other, as the components of the mean stress of that step to 5e-6; the last line has the number of steps, 60, and the time. The log of the parameters lists the parameters that were given, all of them and in their order, each to six digits, and the options exactly. (Refuted: the log determines the model. With the shipped parameter file the reference energy -1.0307952 is logged as -1.0308; a model made from the log has the same log and another reference temperature.)", "quantifier": "For all real numbers and precisions, all ways to round half-way cases, all models, parameters, options and strings, all runs of the example program.", "why_tests_cant": "No test calls logParameters or looks at the text of the example program; formatting errors appear for particular magnitudes only.", "anchors": ["src/ecmech/ECMech_matModelBase.h: DUMPVECOSS, logParameters", "miniapp/orientation_evolution.cxx: main (output)"]}
{"id": "C107", "title": "Linear Voce hardening in floating-point arithmetic", "statement": "The residual of the hardness update computed with rounding differs from the exact one by at most 38 roundoffs of the strength (times the larger of one and the factor h0*shrate*dt/(saturation - initial strength), and scaled). When the computed residual passes the test of the solver, the stored strength differs from the solution of the implicit equation by tol*max(h,1)/(1+factor) and at most 42 roundoffs of the strength, whatever the rate of hardening, the slip rate and the length of the step. Over any number of steps these errors add up at most linearly, the strength stays between the smallest and largest of initial and saturation strengths up to that, and if every step goes at least the factor a towards saturation the error stays below 1+1/a times that of one step for ever. The computed derivative is never below one, at the exact solution the computed residual is a few roundoffs (so the tolerance can be met), and the saturation strength is right to 4.1 roundoffs.", "quantifier": "For all arithmetics with the error bounds of IEEE 754 (double precision is an instance), all parameters, strengths, rates and steps of usual size (powers of ten up to 20), all solvers' results and all histories.", "why_tests_cant": "Accumulated rounding over long histories cannot be separated from the tolerance of the solver in a test with one step.", "anchors": ["src/ecmech/ECMech_kinetics.h: Kinetics_H1Problem, updateH1", "src/ecmech/ECMech_kinetics_VocePL.h: getEvolVals, getSdot1"]}
{"id": "C108", "title": "A run can be continued from the entries flagged as state", "statement": "Every model describes its history entry by entry with two flags. All entries are flagged for plotting, and all but the flow strength and the number of evaluations are flagged as state. These flags are sufficient: from two memories that agree in energy, stress and the flagged entries an update gives the same result in every variable, fails with the same message, or is undefined for the same reason. So a run stopped at any point and continued from what is flagged (the other entries at their initial values, temperature, moduli and tangent reset) has the same values in every variable after the next step. The accumulated slip is a counter: an offset in it is carried along and changes nothing else. The flags are not minimal: the effective slip rate is flagged, but no update reads it.", "quantifier": "For every model of the library, all accepted parameters, all materials of its size, all inputs, solvers, memories and lengths of the run.", "why_tests_cant": "No test stops and continues a run, and that two entries are never read cannot be seen from finitely many runs.", "anchors": ["src/ecmech/ECMech_evptnWrap.h: initFromParams (history description), getHistInfo", "src/ecmech/ECMech_evptn.h: getResponseSngl"]}
{"id": "C109", "title": "Dislocation density update in floating-point arithmetic", "statement": "The residual of the density update computed with rounding differs from the exact one by at most 18 roundoffs of the logarithm of the density, times the larger of one and what is stored and recovered in the step. When the computed residual passes the test of the solver, the computed logarithm differs from the solution of the implicit balance of storage and recovery by 1.002 times the scaled tolerance and at most 116 roundoffs of the square of the logarithm, whatever the coefficients, the slip rate and the length of the step. With the rounding of the logarithm and the exponential, by which the density is read and stored, and of the coefficient of recovery (4.1 roundoffs), the errors of a history add up at most linearly: after N steps the stored density is right to a relative error of N times (1.002*tol*Y + 135*Y^2 roundoffs), Y bounding the logarithms. The computed derivative is never below one and the tolerance can be met.", "quantifier": "For all arithmetics with the error bounds of IEEE 754 and library functions right to two roundoffs (double precision is an instance), all parameters, rates and steps of usual size (powers of ten up to 20), logarithms up to 50, all solvers' results and all histories.", "why_tests_cant": "The update works through a logarithm and an exponential in every step; how their errors accumulate over long histories cannot be separated from the tolerance of the solver in a test of one step.", "anchors": ["src/ecmech/ECMech_kinetics.h: Kinetics_H1Problem, updateH1", "src/ecmech/ECMech_kinetics_KMBalD.h: updateH, getEvolVals, getSdot1"]}
{"id": "C110", "title": "The polycrystal test", "statement": "test_px prints, for parameters of any model and any numbers of crystals and steps, the time and the mean of the axial stresses of single crystals that are pulled independently of each other; it comes to its end exactly when no quaternion is zero and every crystal can be pulled alone. In every step the volume ratios are one and one with no change. The crystals can be taken in another order and the arrays for temperature and moduli, which are not initialised, can hold anything. The parameters of both variants of the test are accepted. With power-law slip all hundred steps succeed for any orientations, given solvers that find the solutions there are. With dislocation kinetics the printed means are not determined to the ten digits the test compares: after one step any mean from 0.00392 to 0.004 is possible within the tolerance.", "quantifier": "For all orientations, numbers of crystals (up to index overflow) and steps, contents of uninitialised memory, solvers with their contract.", "why_tests_cant": "The test itself runs one draw of orientations in one order with one solver; that its result does not depend on memory it does not initialise, or on the other crystals of the batch, is not visible in one run.", "anchors": ["test/test_px.cxx", "test/setup_base.h, setup_elastn.h, setup_kin_VocePL.h, setup_kin_KMBalD_FFF.h, setup_eos.h"]}
{"id": "C111", "title": "Dependence of one update on its loading, and the tangent in the direction of volume", "statement": "Two updates from the same memory with steps of the same length but different deformation rates, spins and (for the cubic class) volumes, made with any sound solvers: hardening state and temperature are the same, and if the first step is short on the scale of its rate and spin, lattice orientations, elastic strains and slip rates differ by no more than a multiple of the differences of the loadings plus what the tolerance allows. The multiple does not depend on how steep the slip law is. For the cubic class the deviatoric stresses follow (with the largest stiffness), and the pressure has the returned bulk modulus over the volume as its derivative wherever the modulus is above its floor. The tangent is not the derivative of the stress in the direction of volume: it has no change of the deviatoric stress, which falls with the power -4/3 of the volume when the crystal does not slip.", "quantifier": "For all materials with kinetics that do not use the pressure (both laws of the library), memories, pairs of loadings with the same time step, sound solvers.", "why_tests_cant": "The finite-difference test of the tangent uses a tolerance of one per thousand for one state, where the missing term, relative to the modulus, is of the size of the elastic strain; a bound on the dependence on the loading is a statement about all pairs of loadings.", "anchors": ["src/ecmech/ECMech_evptn.h (computeRJ, getResponseSngl, 1137-1166)", "test/test_updst.cxx:268-354"]}
{"id": "C112", "title": "What the single-crystal test prints, and what its comparison of the tangent with difference quotients compares", "statement": "The program test_updst (driver_a) gets to the end of its loop exactly when the crystal can be pulled through all steps; the volume ratios stay one and each line shows time, axial deviatoric stress, hardening variable and pressure of that run, whatever the uninitialised arrays hold. The pressure of a line is 1.7 times 1.5e-3 times the sum, over the earlier steps, of the axial stresses before and after the step; the stress of its own line does not enter, so the check of the last pressure is a check of a mean of the earlier stresses. With power-law slip and solvers that find the solutions there are, a hundred lines are printed. With DO_FD_CHECK_MTAN, the perturbed rates are those of the test plus 1e-14 times a unit engineering strain; the quotients are those of seven steps from the same state; the mean of the first three entries of a column is the bulk modulus plus 1.7 times the pressure to within two parts in 1e11 for normal strains and zero for shear strains, and the mean of the nine entries of the tangent is this modulus with its lower bound. So the volume part of the comparison does not depend on the solver. With a linear solver that does not fail, the comparison is reached.", "quantifier": "For all models and parameters that are accepted (lines), numbers of steps, both orientations, contents of uninitialised memory; for all materials with the equation of state of the test (pressure, mean); for all solvers, where none is named.", "why_tests_cant": "The test checks three numbers of the last line for one build; which stresses the checked pressure depends on, and that uninitialised memory does not matter, are statements about all runs.", "anchors": ["test/test_updst.cxx:140-357", "test/setup_kin_VocePL.h:1-9", "test/setup_eos.h:7-14", "src/ecmech/ECMech_evptnWrap.h:286-388"]}
{"id": "C113", "title": "The tests of one step make the same step in three ways", "statement": "test_evptn builds the equations of one step by hand and solves them, then calls getResponseSngl with a tangent; updst_a makes the step by getResponseECM without tangent. The equations set up by getResponseSngl are those built by hand (the question in the comment of the test), for every material whose reference temperature is 300 and whose hardening state does not change without slip. With a solver whose limit of iterations has no effect unless it is reached, the slip rates of the two parts are equal and the second counts one evaluation more, so that the seven checks of the test amount to five. When test_evptn gets to its end, so does updst_a, with the same history except for the number of evaluations, which is that of the first part, whatever the uninitialised arrays hold; when one of the tests passes, so does the other, apart from the check of rho and a failing linear solver. For all four kinds of kinetics there is a solver with which the tests pass as a whole. The check of rho is one-sided: any value below one passes.", "quantifier": "For all solvers that keep their contract and have such a limit, all materials built from accepted parameters with that rest state, all expected values with at most 100 evaluations, all contents of uninitialised memory.", "why_tests_cant": "The tests compare each of the ways with the same printed digits; that the ways agree with each other for every material and that uninitialised memory does not matter they do not show.", "anchors": ["test/test_evptn.cxx:30-184", "test/test_updst.cxx:34-138", "test/setup_conditions.h:1-13", "test/test_expectedVals.h:1-36", "src/ecmech/ECMech_evptn.h:998-1246"]}
{"id": "C114", "title": "The tests of the hardening laws count the evaluations of Newton's method", "statement": "The parameters in the setup files of test_hardening and test_aniso_hardening are accepted. With Newton's method that takes a step before it looks at the residual, all these tests pass: the linear Voce law with 2 evaluations, the nonlinear one with 3, without strengthening with 2, the dislocation density with 5, each with the expected value within the tolerance of the test; with one strength for each slip system every strength has that value, not only the last one, which is checked. The contract of the solver alone does not make the tests pass, and Newton's method that looks at the residual first fails the test without strengthening, because it needs one evaluation. With the linear law the count is two exactly if the relative error of the derivative that the law returns is at most 6e-6 divided by the root of the number of strengths.", "quantifier": "For the linear and the nonlinear law, with and without strengthening, for one strength and for twelve; for the density; the statement on the derivative for every derivative from one half up and every number of strengths up to 16.", "why_tests_cant": "A test passes or fails with the solver it is linked to; that the expected counts are those of Newton's method with the derivative of the law, and which errors of the derivative the count shows, it does not say.", "anchors": ["test/test_hardening.cxx:9-125", "test/test_aniso_hardening.cxx:10-97", "test/setup_kin_VocePL.h:1-47", "test/setup_kin_VocePL_NS.h:1-47", "test/setup_kin_KMBalD_FFF.h:1-27", "src/ecmech/ECMech_kinetics.h:93-187"]}
{"id": "C115", "title": "What the checks of the slip geometry are worth and what NO_CHECKS leaves out", "statement": "With the compile-time option NO_CHECKS the tables of slip systems and the conversion of four-index vectors give what they give without it, exactly where the checks do not object; no geometry of the library depends on the option. For any normal and direction the resolved shear stress of the code misses the shear component of the traction by the mean stress times their product, so it is right for all stresses exactly if the direction lies in the plane, and wrong by at most 1e-8 times the mean stress with a table that the check accepts. With the option a direction along the normal is accepted and its resolved shear stress is wrong. The check of the plane indices leaves divisions by zero only where all three basal indices are at most 2e-8; there one is possible, and without the check the plane (1 0 0 0) leads to one. The message 'internal error' of the conversion is given for a direction that does not lie in the plane. With the option every ratio of the hexagonal axes is accepted, negative ones included, which give directions that leave their planes.", "quantifier": "For all normals and directions, all symmetric stresses, all four-index vectors, all positive ratios of the axes.", "why_tests_cant": "The tests never build with the option and never use tables that a check rejects.", "anchors": ["src/ecmech/ECMech_slipgeom.h:13-47", "src/ecmech/ECMech_util.h:1230-1323", "src/ecmech/ECMech_slipgeom.h:333-430"]}
{"id": "C116", "title": "Vectors and matrices are printed in columns and to 14 digits", "statement": "printVec writes one line with a field for each entry in order, printMat one line for each row with a field for each column; a field holds the number to 14 digits after blanks and before one blank. For every finite double the field has exactly 22 characters, so that entry j stands in the columns from 22 j on, and reading the field back gives the number to 14 digits. Printing a vector that is not empty leaves the stream at 14 digits for everything written later.", "quantifier": "For all numbers of entries, all entries of the size of a double, all streams and all roundings to nearest.", "why_tests_cant": "The tests print with these functions but check nothing of what is printed.", "anchors": ["src/ecmech/ECMech_util.h:1325-1356"]}
{"id": "C117", "title": "What the checks of moduli and slip geometry do with a NaN", "statement": "With numbers the checks of the bulk and shear modulus, of the four-index conversion and of the slip tables act as in the model without NaN. The checks of the moduli let pass exactly the positive numbers and NaN, that of the density the numbers not below zero and NaN, and that of the slip tables those whose products of normal and direction are small or NaN. It is false that the checks keep NaN out: a NaN among the constants of a modulus, as density or as ratio of the hexagonal axes passes every check, and the hexagonal crystal then has a NaN in the normal of every pyramidal system.", "quantifier": "For all constants, ratios and indices that are numbers or NaN; operations pass NaN on and comparisons with NaN are false (IEEE 754).", "why_tests_cant": "No test gives a NaN as parameter, and the checks are written as comparisons that a NaN does not meet.", "anchors": ["src/ecmech/ECMech_evptn.h:191-208", "src/ecmech/ECMech_evptn.h:377-394", "src/ecmech/ECMech_matModelBase.h:210-215", "src/ecmech/ECMech_slipgeom.h:20-26", "src/ecmech/ECMech_util.h:1236-1244", "src/ecmech/ECMech_util.h:1318-1322"]}
{"id": "C118", "title": "What the slip laws do with a NaN", "statement": "With numbers the slip laws, the scale of the residual and the flow strength act as in the model without NaN. In the power law of Voce hardening a NaN as stress or strength is answered with zero rate and zero derivatives, and whatever stress and strength are, it gives numbers. It is false that no slip means a small stress: with a NaN as strength (in a program without assert) no system slips under any stresses and the effective rate of slip is zero; with assert the program stops. A NaN as norm of the rate of deformation gives a million times the step as scale of the residual, and as effective rate it gives the strength as flow strength. In the balanced MTS law a NaN as stress gives a NaN as rate; a NaN as strength does so when the strength is the athermal stress, and otherwise for every stress that is not zero and is beyond the threshold of the drag part, below which the rate is zero.", "quantifier": "For all parameters that are numbers, all numbers of slip systems and all stresses, strengths and rates that are numbers or NaN; strength not zero in the power law, exponents p and q not zero in the MTS law.", "why_tests_cant": "No test passes a NaN, and the result contains no NaN that a test could find.", "anchors": ["src/ecmech/ECMech_kinetics_VocePL.h:166-279", "src/ecmech/ECMech_evptn.h:448-454", "src/ecmech/ECMech_evptn.h:1187-1192", "src/ecmech/ECMech_kinetics_KMBalD.h:307-356", "src/ecmech/ECMech_kinetics_KMBalD.h:391-604"]}
