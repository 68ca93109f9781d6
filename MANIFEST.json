{
 "claims": [
  {
   "property": "C01",
   "status": "proved",
   "theorems": [
    "Ecm.Props.C01_tensor_round_trip",
    "Ecm.Props.C01_internal_round_trip"
   ],
   "note": ""
  },
  {
   "property": "C02",
   "status": "proved",
   "theorems": [
    "Ecm.Props.C02_inner_products",
    "Ecm.Props.C02_effective_rate"
   ],
   "note": ""
  },
  {
   "property": "C03",
   "status": "proved",
   "theorems": [
    "Ecm.Props.C03_unit_quaternion_is_rotation"
   ],
   "note": ""
  },
  {
   "property": "C04",
   "status": "proved",
   "theorems": [
    "Ecm.Props.C04_composition",
    "Ecm.Props.C04_composition_assoc"
   ],
   "note": ""
  },
  {
   "property": "C05",
   "status": "proved",
   "theorems": [
    "Ecm.Props.C05_unit",
    "Ecm.Props.C05_rodrigues",
    "Ecm.Props.C05_tiny"
   ],
   "note": ""
  },
  {
   "property": "C06",
   "status": "proved",
   "theorems": [
    "Ecm.Props.C06_rotates",
    "Ecm.Props.C06_orthogonal"
   ],
   "note": ""
  },
  {
   "property": "C07",
   "status": "proved",
   "theorems": [
    "Ecm.Props.C07_step",
    "Ecm.Props.C07_history"
   ],
   "note": ""
  },
  {
   "property": "C08",
   "status": "proved",
   "theorems": [
    "Ecm.Props.C08_commutator",
    "Ecm.Props.C08_antisymmetric"
   ],
   "note": ""
  },
  {
   "property": "C09",
   "status": "proved",
   "theorems": [
    "Ecm.Props.C09_quaternion_derivative",
    "Ecm.Props.C09_quaternion_derivative_zero",
    "Ecm.Props.C09_quaternion_derivative_series",
    "Ecm.Props.C09_map_is_exponential",
    "Ecm.Props.C09_tensor_derivative"
   ],
   "note": ""
  },
  {
   "property": "C10",
   "status": "proved",
   "theorems": [
    "Ecm.Props.C10_lattice_rate",
    "Ecm.Props.C10_sample_stress",
    "Ecm.Props.C10_lattice_spin",
    "Ecm.Props.C10_increment"
   ],
   "note": ""
  },
  {
   "property": "C11",
   "status": "proved",
   "theorems": [
    "Ecm.Props.C11_jacobian",
    "Ecm.Props.C11_voce",
    "Ecm.Props.C11_exact_map",
    "Ecm.Props.C11_start",
    "Ecm.Props.C11_series"
   ],
   "note": ""
  },
  {
   "property": "C12",
   "status": "proved",
   "theorems": [
    "Ecm.Props.C12_single",
    "Ecm.Props.C12_several",
    "Ecm.Props.C12_voce_linear",
    "Ecm.Props.C12_voce_nonlinear",
    "Ecm.Props.C12_density",
    "Ecm.Props.C12_voce_per_system"
   ],
   "note": ""
  },
  {
   "property": "C13",
   "status": "proved",
   "theorems": [
    "Ecm.Props.C13_balance",
    "Ecm.Props.C13_resolved",
    "Ecm.Props.C13_orientation",
    "Ecm.Props.C13_hardening_single",
    "Ecm.Props.C13_hardening_several"
   ],
   "note": ""
  },
  {
   "property": "C14",
   "status": "proved",
   "theorems": [
    "Ecm.Props.C14_tangent_conversion"
   ],
   "note": ""
  },
  {
   "property": "C15",
   "status": "proved",
   "theorems": [
    "Ecm.Props.C15_continuous",
    "Ecm.Props.C15_deviatoric",
    "Ecm.Props.C15_volumetric"
   ],
   "note": ""
  },
  {
   "property": "C16",
   "status": "proved",
   "theorems": [
    "Ecm.Props.C16_fcc",
    "Ecm.Props.C16_bcc",
    "Ecm.Props.C16_hcp",
    "Ecm.Props.C16_check_rejects"
   ],
   "note": ""
  },
  {
   "property": "C17",
   "status": "proved",
   "theorems": [
    "Ecm.Props.C17_hcp_families",
    "Ecm.Props.C17_fcc",
    "Ecm.Props.C17_bcc12",
    "Ecm.Props.C17_bcc24",
    "Ecm.Props.C17_bcc48",
    "Ecm.Props.C17_hcp",
    "Ecm.Props.C17_ops_orthogonal"
   ],
   "note": ""
  },
  {
   "property": "C18",
   "status": "proved",
   "theorems": [
    "Ecm.Props.C18_resolved_shear",
    "Ecm.Props.C18_plastic_rate",
    "Ecm.Props.C18_plastic_spin",
    "Ecm.Props.C18_power"
   ],
   "note": ""
  },
  {
   "property": "C19",
   "status": "proved",
   "theorems": [
    "Ecm.Props.C19_miller",
    "Ecm.Props.C19_rejects"
   ],
   "note": ""
  },
  {
   "property": "C20",
   "status": "proved",
   "theorems": [
    "Ecm.Props.C20_reference_state",
    "Ecm.Props.C20_pressure_decreasing",
    "Ecm.Props.C20_update",
    "Ecm.Props.C20_bulk_positive",
    "Ecm.Props.C20_floor_inactive"
   ],
   "note": ""
  },
  {
   "property": "C21",
   "status": "proved",
   "theorems": [
    "Ecm.Props.C21_energy_derivatives",
    "Ecm.Props.C21_energy_derivatives_isothermal",
    "Ecm.Props.C21_routines_agree",
    "Ecm.Props.C21_dpdv",
    "Ecm.Props.C21_bulk_isentropic"
   ],
   "note": ""
  },
  {
   "property": "C22",
   "status": "proved",
   "theorems": [
    "Ecm.Props.C22_pressure",
    "Ecm.Props.C22_cubic",
    "Ecm.Props.C22_hexag"
   ],
   "note": ""
  },
  {
   "property": "C23",
   "status": "proved",
   "theorems": [
    "Ecm.Props.C23_history",
    "Ecm.Props.C23_energy"
   ],
   "note": ""
  },
  {
   "property": "C24",
   "status": "proved",
   "theorems": [
    "Ecm.Props.C24_value",
    "Ecm.Props.C24_overflow",
    "Ecm.Props.C24_odd",
    "Ecm.Props.C24_sign"
   ],
   "note": ""
  },
  {
   "property": "C25",
   "status": "proved",
   "theorems": [
    "Ecm.Props.C25_active",
    "Ecm.Props.C25_inactive"
   ],
   "note": ""
  },
  {
   "property": "C26",
   "status": "proved",
   "theorems": [
    "Ecm.Props.C26_refuted",
    "Ecm.Props.C26_monotone_below_overflow"
   ],
   "note": "Refuted: at the overflow limit a larger stress gives a smaller rate (1e60 vs 1e45 times the reference rate); monotone below that limit is proved."
  },
  {
   "property": "C27",
   "status": "proved",
   "theorems": [
    "Ecm.Props.C27_law",
    "Ecm.Props.C27_solution",
    "Ecm.Props.C27_monotone_in_dt",
    "Ecm.Props.C27_update"
   ],
   "note": ""
  },
  {
   "property": "C28",
   "status": "proved",
   "theorems": [
    "Ecm.Props.C28_sign",
    "Ecm.Props.C28_odd",
    "Ecm.Props.C28_divisors"
   ],
   "note": ""
  },
  {
   "property": "C29",
   "status": "proved",
   "theorems": [
    "Ecm.Props.C29_drag_bound"
   ],
   "note": ""
  },
  {
   "property": "C30",
   "status": "proved",
   "theorems": [
    "Ecm.Props.C30_without_backward_jumps",
    "Ecm.Props.C30_wrong_with_backward_jumps",
    "Ecm.Props.C30_strength_derivative",
    "Ecm.Props.C30_below_threshold",
    "Ecm.Props.C30_refuted",
    "Ecm.Props.C30_drag_small"
   ],
   "note": "Refuted: ECMech_kinetics_KMBalD.h:542 has the wrong sign for the stress derivative of jumps against the stress; proved that the derivative is right when those jumps do not count, that the strength derivative is always right, and the concrete witness. At a small overstress the reported derivative of the drag law is that of the computed rate times one minus the argument (C30_drag_small)."
  },
  {
   "property": "C31",
   "status": "proved",
   "theorems": [
    "Ecm.Props.C31_positive",
    "Ecm.Props.C31_solution",
    "Ecm.Props.C31_update"
   ],
   "note": ""
  },
  {
   "property": "C32",
   "status": "proved",
   "theorems": [
    "Ecm.Props.C32_step",
    "Ecm.Props.C32_dissipation",
    "Ecm.Props.C32_history",
    "Ecm.Props.C32_voce",
    "Ecm.Props.C32_kmbald"
   ],
   "note": ""
  },
  {
   "property": "C33",
   "status": "proved",
   "theorems": [
    "Ecm.Props.C33_frame",
    "Ecm.Props.C33_every_rotation",
    "Ecm.Props.C33_rotSvec"
   ],
   "note": ""
  },
  {
   "property": "C34",
   "status": "proved",
   "theorems": [
    "Ecm.Props.C34_no_load",
    "Ecm.Props.C34_rigid_rotation"
   ],
   "note": ""
  },
  {
   "property": "C35",
   "status": "proved",
   "theorems": [
    "Ecm.Props.C35_independent",
    "Ecm.Props.C35_order",
    "Ecm.Props.C35_failure",
    "Ecm.Props.C35_windows_disjoint"
   ],
   "note": ""
  },
  {
   "property": "C36",
   "status": "proved",
   "theorems": [
    "Ecm.Props.C36_only_own_windows",
    "Ecm.Props.C36_zero_points",
    "Ecm.Props.C36_call"
   ],
   "note": ""
  },
  {
   "property": "C37",
   "status": "proved",
   "theorems": [
    "Ecm.Props.C37_exact",
    "Ecm.Props.C37_total",
    "Ecm.Props.C37_message",
    "Ecm.Props.C37_refuted_message",
    "Ecm.Props.C37_default"
   ],
   "note": "Acceptance is exact. The message of a rejection names the right stride except for the volume ratio (C37_refuted_message)."
  },
  {
   "property": "C38",
   "status": "proved",
   "theorems": [
    "Ecm.Props.C38_same_answer",
    "Ecm.Props.C38_same_success"
   ],
   "note": ""
  },
  {
   "property": "C39",
   "status": "proved",
   "theorems": [
    "Ecm.Props.C39_counts",
    "Ecm.Props.C39_cubic",
    "Ecm.Props.C39_hcp",
    "Ecm.Props.C39_negative_ratio"
   ],
   "note": ""
  },
  {
   "property": "C40",
   "status": "proved",
   "theorems": [
    "Ecm.Props.C40_km_assert",
    "Ecm.Props.C40_model",
    "Ecm.Props.C40_complete",
    "Ecm.Props.C40_voce",
    "Ecm.Props.C40_refuted_voce_nonlinear",
    "Ecm.Props.C40_refuted_voce_not_injective",
    "Ecm.Props.C40_km",
    "Ecm.Props.C40_km_accepts",
    "Ecm.Props.C40_elasticity",
    "Ecm.Props.C40_eos",
    "Ecm.Props.C40_hcp"
   ],
   "note": "Refuted: getParams of the Voce kinetics with nonlinear hardening leaves out the exponent (ECMech_kinetics_VocePL.h), so the list it returns has 9 entries instead of 10 and two different models return the same list; proved that every other sub-model and the whole model return exactly what they were given. Exponents different from one where the template takes them to be one only meet an assert (C40_km_assert)."
  },
  {
   "property": "C41",
   "status": "proved",
   "theorems": [
    "Ecm.Props.C41_length",
    "Ecm.Props.C41_names",
    "Ecm.Props.C41_initial",
    "Ecm.Props.C41_hardness",
    "Ecm.Props.C41_distinct"
   ],
   "note": ""
  },
  {
   "property": "C42",
   "status": "proved",
   "theorems": [
    "Ecm.Props.C42_not_complete",
    "Ecm.Props.C42_not_initialised",
    "Ecm.Props.C42_complete_too_early",
    "Ecm.Props.C42_ready",
    "Ecm.Props.C42_failed_init_keeps_complete"
   ],
   "note": ""
  },
  {
   "property": "C43",
   "status": "proved",
   "theorems": [
    "Ecm.Props.C43_km_order",
    "Ecm.Props.C43_names",
    "Ecm.Props.C43_other",
    "Ecm.Props.C43_fcc_voce",
    "Ecm.Props.C43_fcc_voce_nonlinear",
    "Ecm.Props.C43_fcc_km",
    "Ecm.Props.C43_bcc_km",
    "Ecm.Props.C43_hcp_km"
   ],
   "note": ""
  },
  {
   "property": "C44",
   "status": "proved",
   "theorems": [
    "Ecm.Props.C44_exact",
    "Ecm.Props.C44_model",
    "Ecm.Props.C44_rejects",
    "Ecm.Props.C44_refuted_strided",
    "Ecm.Props.C44_refuted_broadcast",
    "Ecm.Props.C44_refuted_length"
   ],
   "note": "Refuted: strided numpy arrays are read with stride one, so the model is silently built from other numbers; broadcast arrays are read out of bounds; lengths are cut to 32 bits. Proved exact for contiguous arrays with fewer than 2^31 entries."
  },
  {
   "property": "C45",
   "status": "proved",
   "theorems": [
    "Ecm.Props.C45_safe",
    "Ecm.Props.C45_rejects",
    "Ecm.Props.C45_refuted_broadcast"
   ],
   "note": "Refuted: the checks look at shapes only, so a legal broadcast array passes and is read out of bounds. Proved for C-contiguous arrays with fewer than 2^32 history entries, together with row-by-row results."
  },
  {
   "property": "C46",
   "status": "proved",
   "theorems": [
    "Ecm.Props.C46_literals"
   ],
   "note": ""
  },
  {
   "property": "C47",
   "status": "proved",
   "theorems": [
    "Ecm.Props.C47_elastic_law",
    "Ecm.Props.C47_bulk",
    "Ecm.Props.C47_positive_definite",
    "Ecm.Props.C47_stability_constants",
    "Ecm.Props.C47_reported_shear_modulus",
    "Ecm.Props.C47_reported_shear_modulus_inconsistent"
   ],
   "note": ""
  },
  {
   "property": "C48",
   "status": "proved",
   "theorems": [
    "Ecm.Props.C48_beginning_of_step",
    "Ecm.Props.C48_refuted"
   ],
   "note": "Refuted: the temperature returned is that of the old energy at the old volume (ECMech_evptn.h:1063-1068), concrete witness; proved that it is exactly the beginning-of-step temperature and that isothermal materials are unaffected."
  },
  {
   "property": "C49",
   "status": "proved",
   "theorems": [
    "Ecm.Props.C49_offset",
    "Ecm.Props.C49_refuted_history",
    "Ecm.Props.C49_refuted_every_stride",
    "Ecm.Props.C49_refuted_tangent"
   ],
   "note": "Refuted: offsets are computed in 32-bit unsigned arithmetic, so for index*stride >= 2^32 a point uses another point's data; concrete witnesses for the history, tangent and every accepted stride; proved that below that limit every offset is exact."
  },
  {
   "property": "C50",
   "status": "proved",
   "theorems": [
    "Ecm.Props.C50_kinematics",
    "Ecm.Props.C50_volume",
    "Ecm.Props.C50_stress",
    "Ecm.Props.C50_step",
    "Ecm.Props.C50_run_volume",
    "Ecm.Props.C50_isochoric"
   ],
   "note": ""
  },
  {
   "property": "C51",
   "status": "proved",
   "theorems": [
    "Ecm.Props.C51_slots",
    "Ecm.Props.C51_one_hardness",
    "Ecm.Props.C51_refuted_flow_strength",
    "Ecm.Props.C51_refuted_hardness",
    "Ecm.Props.C51_flow_strength_unused"
   ],
   "note": "Refuted: the hardness loop (setup_kernels.cxx:52-54) drops its index, so with two or more hardness variables the first gets the value of the last and the others stay uninitialised; the flow strength slot is never initialised for any model (proved harmless: no update depends on it). Proved that every other slot is initialised."
  },
  {
   "property": "C52",
   "status": "proved",
   "theorems": [
    "Ecm.Props.C52_cubic",
    "Ecm.Props.C52_refuted_hcp"
   ],
   "note": "Refuted: for the hexagonal model nParams leaves out the axial ratio (ecmech_classes.hpp:408), so no parameter list is ever accepted. Proved for the six cubic models."
  },
  {
   "property": "C53",
   "status": "proved",
   "theorems": [
    "Ecm.Props.C53_stress_from_state"
   ],
   "note": ""
  },
  {
   "property": "C54",
   "status": "proved",
   "theorems": [
    "Ecm.Props.C54_flow_strength"
   ],
   "note": ""
  },
  {
   "property": "C55",
   "status": "proved",
   "theorems": [
    "Ecm.Props.C55_description",
    "Ecm.Props.C55_permutation",
    "Ecm.Props.C55_equations",
    "Ecm.Props.C55_cubic",
    "Ecm.Props.C55_hexagonal",
    "Ecm.Props.C55_update",
    "Ecm.Props.C55_voce",
    "Ecm.Props.C55_kmbald"
   ],
   "note": ""
  },
  {
   "property": "C56",
   "status": "proved",
   "theorems": [
    "Ecm.Props.C56_matrix_helpers"
   ],
   "note": ""
  },
  {
   "property": "C57",
   "status": "proved",
   "theorems": [
    "Ecm.Props.C57_failure",
    "Ecm.Props.C57_solver",
    "Ecm.Props.C57_late_failure"
   ],
   "note": ""
  },
  {
   "property": "C58",
   "status": "proved",
   "theorems": [
    "Ecm.Props.C58_not_read",
    "Ecm.Props.C58_accumulator"
   ],
   "note": ""
  },
  {
   "property": "C59",
   "status": "proved",
   "theorems": [
    "Ecm.Props.C59_stationary",
    "Ecm.Props.C59_single_slip"
   ],
   "note": ""
  },
  {
   "property": "C60",
   "status": "proved",
   "theorems": [
    "Ecm.Props.C60_problem",
    "Ecm.Props.C60_state",
    "Ecm.Props.C60_refuted_energy"
   ],
   "note": "Same problem, stress, temperature, moduli and history (except the evaluation count) proved; the energy returned by the single-point binding is indeterminate (members never assigned), proved as C60_refuted_energy."
  },
  {
   "property": "C61",
   "status": "proved",
   "theorems": [
    "Ecm.Props.C61_every_interleaving",
    "Ecm.Props.C61_terminates",
    "Ecm.Props.C61_no_deadlock",
    "Ecm.Props.C61_read_update_write",
    "Ecm.Props.C61_parallel_call"
   ],
   "note": "Point programs built from the single-point update; every interleaving of single reads and writes ends in the memory of the serial loop."
  },
  {
   "property": "C62",
   "status": "proved",
   "theorems": [
    "Ecm.Props.C62_any_kinetics",
    "Ecm.Props.C62_kmbald",
    "Ecm.Props.C62_kmbald_history",
    "Ecm.Props.C62_kmbald_admissible",
    "Ecm.Props.C62_voce_strength",
    "Ecm.Props.C62_voce",
    "Ecm.Props.C62_voce_history",
    "Ecm.Props.C62_margin_needed"
   ],
   "note": "Dislocation kinetics: any history, any solver. Power law (linear hardening): needs a sound solver and a margin, because the tolerance is absolute below strength one (margin shown necessary)."
  },
  {
   "property": "C63",
   "status": "proved",
   "theorems": [
    "Ecm.Props.C63_law",
    "Ecm.Props.C63_solution",
    "Ecm.Props.C63_update",
    "Ecm.Props.C63_odd_exponent",
    "Ecm.Props.C63_refuted_above",
    "Ecm.Props.C63_refuted_even",
    "Ecm.Props.C63_refuted_small_exponent",
    "Ecm.Props.C63_refuted_rate_drop",
    "Ecm.Props.C63_refuted_spurious_root"
   ],
   "note": "Refuted above saturation: for exponents that are not integers no sound solver converges (pow of a negative number), for even exponents the strength runs away from saturation, and with saturation below the initial strength exponents below one always fail. Proved below saturation and for odd exponents."
  },
  {
   "property": "C64",
   "status": "proved",
   "theorems": [
    "Ecm.Props.C64_values",
    "Ecm.Props.C64_law",
    "Ecm.Props.C64_refuted_cold"
   ],
   "note": "Two-sided bound at every stress from half the reference temperature on, outside the zones |t|<1e-90 and 0<1-|t|^p<1e-90 and where forward and reverse jumps agree to 1e-60. Refuted in the cold: the rate is dropped to zero where the power law term is of order one."
  },
  {
   "property": "C65",
   "status": "proved",
   "theorems": [
    "Ecm.Props.C65_monotone",
    "Ecm.Props.C65_refuted_exact"
   ],
   "note": "Exact monotonicity refuted: at the switch from the linear to the exponential drag law the rate drops by a relative 5e-9."
  },
  {
   "property": "C66",
   "status": "proved",
   "theorems": [
    "Ecm.Props.C66_bulk",
    "Ecm.Props.C66_shear",
    "Ecm.Props.C66_positive"
   ],
   "note": "The cubic class returns twice the orientation average (proved), the hexagonal class the average itself."
  },
  {
   "property": "C67",
   "status": "proved",
   "theorems": [
    "Ecm.Props.C67_voce",
    "Ecm.Props.C67_kmbald",
    "Ecm.Props.C67_quiet",
    "Ecm.Props.C67_loud",
    "Ecm.Props.C67_orientation",
    "Ecm.Props.C67_refuted"
   ],
   "note": "Refuted for the returned memory (C67_refuted): only the printed text tells a failed update apart. Proved: no message iff the host succeeds, with equal results; messages only where the host fails; orientation stays a unit quaternion."
  },
  {
   "property": "C68",
   "status": "proved",
   "theorems": [
    "Ecm.Props.C68_only_two",
    "Ecm.Props.C68_failures",
    "Ecm.Props.C68_rate",
    "Ecm.Props.C68_history",
    "Ecm.Props.C68_names",
    "Ecm.Props.C68_names_dev"
   ],
   "note": ""
  },
  {
   "property": "C69",
   "status": "proved",
   "theorems": [
    "Ecm.Props.C69_step_at",
    "Ecm.Props.C69_step",
    "Ecm.Props.C69_history",
    "Ecm.Props.C69_hold",
    "Ecm.Props.C69_voce",
    "Ecm.Props.C69_step_any",
    "Ecm.Props.C69_history_any",
    "Ecm.Props.C69_stress_free"
   ],
   "note": "For hexagonal crystals the size is measured from the elastic strain without shear stress, which moves with volume and reference energy; the history bound contains its movement."
  },
  {
   "property": "C70",
   "status": "proved",
   "theorems": [
    "Ecm.Props.C70_voce",
    "Ecm.Props.C70_strain",
    "Ecm.Props.C70_exact"
   ],
   "note": "Assumes slip rates below the value that replaces an overflow (monotonicity fails there, C26_refuted). The dislocation-density kinetics are monotone only up to a relative 1e-8 (C65), so the theorem is instantiated for the power law."
  },
  {
   "property": "C71",
   "status": "proved",
   "theorems": [
    "Ecm.Props.C71_step",
    "Ecm.Props.C71_no_drift",
    "Ecm.Props.C71_accuracy",
    "Ecm.Props.C71_error_growth"
   ],
   "note": "Rounding model: each operation is exact up to u|x| + eta, library sine and cosine within 2u, sums from left to right without fused multiply-add. Only the quaternion update is modelled with rounding; the increment found by the solver is an arbitrary input."
  },
  {
   "property": "C72",
   "status": "proved",
   "theorems": [
    "Ecm.Props.C72_balance",
    "Ecm.Props.C72_voce",
    "Ecm.Props.C72_update",
    "Ecm.Props.C72_cubic"
   ],
   "note": "Existence of a solution, not convergence of the trust-region iteration, which is not modelled. The statement on the code's law is for the power-law kinetics; the general one is for any continuous monotone law."
  },
  {
   "property": "C73",
   "status": "proved",
   "theorems": [
    "Ecm.Props.C73_convergence",
    "Ecm.Props.C73_voce_bounded",
    "Ecm.Props.C73_voce"
   ],
   "note": "First-order convergence in the time step. Because the residual scaling has an absolute floor, the bound contains N*tol/1e6: at fixed tolerance the error bound does not go to zero with the time step. For the power law with constant saturation strength the states are shown to stay within bounds; for general laws this is assumed."
  },
  {
   "property": "C74",
   "status": "proved",
   "theorems": [
    "Ecm.Props.C74_exact",
    "Ecm.Props.C74_monotone",
    "Ecm.Props.C74_error",
    "Ecm.Props.C74_stalls",
    "Ecm.Props.C74_refuted_tracking"
   ],
   "note": "Monotonicity and the error bound are proved; tracking of the total over unboundedly many steps is refuted with a witness in double precision (finding 28)."
  },
  {
   "property": "C75",
   "status": "proved",
   "theorems": [
    "Ecm.Props.C75_units",
    "Ecm.Props.C75_lup_exact",
    "Ecm.Props.C75_voce",
    "Ecm.Props.C75_km",
    "Ecm.Props.C75_refuted_stress_unit"
   ],
   "note": "Proved for the whole update and both kinetics; for Voce strengths below one the claim is refuted with a witness (finding 30)."
  },
  {
   "property": "C76",
   "status": "proved",
   "theorems": [
    "Ecm.Props.C76_voce_linear",
    "Ecm.Props.C76_voce_nonlinear",
    "Ecm.Props.C76_voce_per_system",
    "Ecm.Props.C76_voce_per_system_nonlinear",
    "Ecm.Props.C76_voce_no_strengthening",
    "Ecm.Props.C76_density",
    "Ecm.Props.C76_voce_update",
    "Ecm.Props.C76_refuted_voce_tolerance"
   ],
   "note": "Proved for all hardening unit tests; that the Voce test passes for every solver that keeps its contract is refuted (finding 31)."
  },
  {
   "property": "C77",
   "status": "proved",
   "theorems": [
    "Ecm.Props.C77_voce",
    "Ecm.Props.C77_voce_unique",
    "Ecm.Props.C77_fcc",
    "Ecm.Props.C77_bcc",
    "Ecm.Props.C77_hcp"
   ],
   "note": "Proved for the four material types of test_evptn; numbers of function evaluations are not modelled."
  },
  {
   "property": "C78",
   "status": "proved",
   "theorems": [
    "Ecm.Props.C78_refuted_cold",
    "Ecm.Props.C78_until"
   ],
   "note": "Negation of the expected property proved with a concrete material (C78_refuted_cold); C78_until shows that the loading succeeds up to the edge of flow."
  },
  {
   "property": "C79",
   "status": "proved",
   "theorems": [
    "Ecm.Props.C79_geometry",
    "Ecm.Props.C79_voce",
    "Ecm.Props.C79_kmbald",
    "Ecm.Props.C79_step",
    "Ecm.Props.C79_balance"
   ],
   "note": "C79_geometry: the constant of the slip systems exists. C79_step: two updates agree, with explicit bounds. C79_balance: exactly one solution of the exact equations. C79_voce, C79_kmbald: the kinetics meet the hypothesis on the law."
  },
  {
   "property": "C80",
   "status": "proved",
   "theorems": [
    "Ecm.Props.C80_jacobian",
    "Ecm.Props.C80_voce",
    "Ecm.Props.C80_kmbald",
    "Ecm.Props.C80_kmbald_curved",
    "Ecm.Props.C80_tangent",
    "Ecm.Props.C80_voce_near",
    "Ecm.Props.C80_derivative"
   ],
   "note": "C80_jacobian: the matrix is invertible. C80_tangent: asking for the tangent does not make the step fail. C80_derivative: the tangent is the derivative along the unique nearby solution. C80_voce, C80_kmbald, C80_kmbald_curved, C80_voce_near: the kinetics meet the hypotheses."
  },
  {
   "property": "C81",
   "status": "proved",
   "theorems": [
    "Ecm.Props.C81_step",
    "Ecm.Props.C81_average",
    "Ecm.Props.C81_run",
    "Ecm.Props.C81_parameters",
    "Ecm.Props.C81_initial",
    "Ecm.Props.C81_prepare",
    "Ecm.Props.C81_reject",
    "Ecm.Props.C81_main",
    "Ecm.Props.C81_garbage",
    "Ecm.Props.C81_order",
    "Ecm.Props.C81_refuted_nevals",
    "Ecm.Props.C81_nevals_range",
    "Ecm.Props.C81_refuted_strategy",
    "Ecm.Props.C81_strategy",
    "Ecm.Props.C81_failure"
   ],
   "note": "C81_main: equivalence between a successful run with its output and the courses of independent crystals. C81_step, C81_run, C81_average, C81_initial, C81_prepare, C81_reject, C81_parameters: the parts. C81_garbage, C81_order: consequences. C81_failure: what has been printed after an error. Refuted parts: C81_refuted_nevals (the report of evaluations is the flow strength), C81_refuted_strategy (the mts model stays on the CPU)."
  },
  {
   "property": "C82",
   "status": "proved",
   "theorems": [
    "Ecm.Props.C82_strength",
    "Ecm.Props.C82_update",
    "Ecm.Props.C82_step",
    "Ecm.Props.C82_next",
    "Ecm.Props.C82_history",
    "Ecm.Props.C82_driven",
    "Ecm.Props.C82_program",
    "Ecm.Props.C82_zero_quat"
   ],
   "note": "C82_strength, C82_update, C82_step, C82_next: one step from a state in range succeeds and stays in range. C82_history: any history. C82_program: the example program prints its sixty lines. C82_zero_quat: with a zero quaternion it never ends well. Example: the program with the copper parameters of the repository and two orientations."
  },
  {
   "property": "C83",
   "status": "proved",
   "theorems": [
    "Ecm.Props.C83_law",
    "Ecm.Props.C83_solution",
    "Ecm.Props.C83_update",
    "Ecm.Props.C83_density",
    "Ecm.Props.C83_step",
    "Ecm.Props.C83_history",
    "Ecm.Props.C83_test"
   ],
   "note": "C83_law: distance of the coded from the documented law. C83_solution, C83_update: one problem, one update. C83_density: the density update. C83_step, C83_history: one step, any history. C83_test with examples: the FCC and HCP parameters of the test suite between 150 and 400 K."
  },
  {
   "property": "C84",
   "status": "proved",
   "theorems": [
    "Ecm.Props.C84_deviator",
    "Ecm.Props.C84_stress",
    "Ecm.Props.C84_heat",
    "Ecm.Props.C84_step",
    "Ecm.Props.C84_history",
    "Ecm.Props.C84_driven",
    "Ecm.Props.C84_program"
   ],
   "note": "C84_deviator, C84_stress, C84_heat: stress and energy of one step. C84_step, C84_history: steps and histories of cubic crystals with dislocation kinetics. C84_driven, C84_program: the example program with the model mts. Examples with the parameters of the test suite."
  },
  {
   "property": "C85",
   "status": "proved",
   "theorems": [
    "Ecm.Props.C85_refuted_zero",
    "Ecm.Props.C85_hcp_exact",
    "Ecm.Props.C85_tables",
    "Ecm.Props.C85_systems",
    "Ecm.Props.C85_fcc",
    "Ecm.Props.C85_bcc",
    "Ecm.Props.C85_step",
    "Ecm.Props.C85_history",
    "Ecm.Props.C85_voce",
    "Ecm.Props.C85_strength",
    "Ecm.Props.C85_endless",
    "Ecm.Props.C85_kmbald",
    "Ecm.Props.C85_hcp",
    "Ecm.Props.C85_hcp_usual",
    "Ecm.Props.C85_hcp_needs",
    "Ecm.Props.C85_step_any",
    "Ecm.Props.C85_history_any",
    "Ecm.Props.C85_stress_any",
    "Ecm.Props.C85_hexag_stiffness"
   ],
   "note": "C85_systems, C85_fcc, C85_bcc, C85_tables: slip systems. C85_step, C85_history: any kinetics. C85_voce, C85_strength, C85_endless: power law. C85_kmbald: dislocation kinetics. C85_hcp, C85_hcp_usual, C85_hcp_needs: hexagonal systems. C85_step_any, C85_history_any, C85_stress_any, C85_hexag_stiffness: any elasticity. Example: the copper of the parameter files through ten million steps."
  },
  {
   "property": "C86",
   "status": "proved",
   "theorems": [
    "Ecm.Props.C86_convert",
    "Ecm.Props.C86_results",
    "Ecm.Props.C86_failure",
    "Ecm.Props.C86_lost",
    "Ecm.Props.C86_script",
    "Ecm.Props.C86_script_runs",
    "Ecm.Props.C86_refuted_integers",
    "Ecm.Props.C86_refuted_temperature"
   ],
   "note": "proved for arrays of doubles; refuted (with witness) for outputs of another element type and for the temperature of pyECMechDev.getState; pybind11's conversion rule is taken from its documentation"
  },
  {
   "property": "C87",
   "status": "proved",
   "theorems": [
    "Ecm.Props.C87_runs",
    "Ecm.Props.C87_refuted_script",
    "Ecm.Props.C87_refused",
    "Ecm.Props.C87_heat",
    "Ecm.Props.C87_refuted_units"
   ],
   "note": "proved for the shipped option files; refuted (with witness) for the job script's last line and for the units of the specific heat in props.txt; decimal input is taken exactly, without rounding to doubles"
  },
  {
   "property": "C88",
   "status": "proved",
   "theorems": [
    "Ecm.Props.C88_stress",
    "Ecm.Props.C88_rate",
    "Ecm.Props.C88_run",
    "Ecm.Props.C88_deviator",
    "Ecm.Props.C88_double"
   ],
   "note": "fused multiply-add and overflow are excluded; the lattice stress itself is taken as given"
  },
  {
   "property": "C89",
   "status": "proved",
   "theorems": [
    "Ecm.Props.C89_voce",
    "Ecm.Props.C89_voce_saturation",
    "Ecm.Props.C89_voce_hardening",
    "Ecm.Props.C89_kmbald",
    "Ecm.Props.C89_kmbald_rates",
    "Ecm.Props.C89_kmbald_recovery",
    "Ecm.Props.C89_kmbald_hardening",
    "Ecm.Props.C89_limit"
   ],
   "note": "intermediate values are not rounded; the limits 1e-300 and 1e300 leave eight decades to those of double precision. The nonlinear Voce hardening law is not included."
  },
  {
   "property": "C90",
   "status": "proved",
   "theorems": [
    "Ecm.Props.C90_strain_residual",
    "Ecm.Props.C90_rotation_residual",
    "Ecm.Props.C90_solver",
    "Ecm.Props.C90_slip_rate",
    "Ecm.Props.C90_tables",
    "Ecm.Props.C90_double"
   ],
   "note": "pow, exp and log are assumed accurate to two roundoffs on the range used (glibc is better); dblLibm shows that the assumption can be met. The norm of the residual is taken exactly. Hexagonal crystals and the dislocation density law are not included. FMA contraction and reordering by the compiler are not modelled."
  },
  {
   "property": "C91",
   "status": "proved",
   "theorems": [
    "Ecm.Props.C91_step",
    "Ecm.Props.C91_history",
    "Ecm.Props.C91_orientation",
    "Ecm.Props.C91_step_closed",
    "Ecm.Props.C91_history_closed",
    "Ecm.Props.C91_double"
   ],
   "note": "Combines C69 and C90. The length of the computed residual is taken exactly. The errors of the slip rates enter as a number for each update; C90_slip_rate bounds them for the power law. Hexagonal crystals are not included."
  },
  {
   "property": "C92",
   "status": "proved",
   "theorems": [
    "Ecm.Props.C92_accuracy",
    "Ecm.Props.C92_responds",
    "Ecm.Props.C92_refuted_slow",
    "Ecm.Props.C92_refuted_px"
   ],
   "note": "C92_accuracy and C92_responds are proved as stated; the unrestricted claim is false (C92_refuted_slow, C92_refuted_px; finding 39). The refutation uses the contract of the solver (residual at most the tolerance); SNLS itself takes a Newton step before it tests, which usually gives far smaller residuals."
  },
  {
   "property": "C93",
   "status": "proved",
   "theorems": [
    "Ecm.Props.C93_balance",
    "Ecm.Props.C93_cycle",
    "Ecm.Props.C93_refuted_cycle",
    "Ecm.Props.C93_refuted_cold",
    "Ecm.Props.C93_refuted_test"
   ],
   "note": "C93_balance and C93_cycle are proved as stated; conservation over cycles is false (C93_refuted_cycle, C93_refuted_cold, C93_refuted_test; finding 41)."
  },
  {
   "property": "C94",
   "status": "proved",
   "theorems": [
    "Ecm.Props.C94_stress",
    "Ecm.Props.C94_step",
    "Ecm.Props.C94_turn",
    "Ecm.Props.C94_heat",
    "Ecm.Props.C94_lost",
    "Ecm.Props.C94_history",
    "Ecm.Props.C94_elastic",
    "Ecm.Props.C94_refuted_step",
    "Ecm.Props.C94_walk",
    "Ecm.Props.C94_refuted_heat",
    "Ecm.Props.C94_refuted_cold"
   ],
   "note": "C94_step, C94_turn, C94_heat, C94_lost, C94_history and C94_elastic are proved as stated; that slip never cools is false (C94_refuted_step, C94_refuted_heat, C94_refuted_cold; finding 42)."
  },
  {
   "property": "C95",
   "status": "proved",
   "theorems": [
    "Ecm.Props.C95_sound",
    "Ecm.Props.C95_unsound",
    "Ecm.Props.C95_main",
    "Ecm.Props.C95_released",
    "Ecm.Props.C95_host",
    "Ecm.Props.C95_refuted_cuda",
    "Ecm.Props.C95_refuted_hip",
    "Ecm.Props.C95_repaired",
    "Ecm.Props.C95_refuted_mts",
    "Ecm.Props.C95_reach",
    "Ecm.Props.C95_copy",
    "Ecm.Props.C95_mirror"
   ],
   "note": "C95_main (exact characterisation), C95_released, C95_host and C95_repaired are proved; soundness on every device is false (C95_refuted_cuda, C95_refuted_hip, C95_refuted_mts; finding 43)."
  },
  {
   "property": "C96",
   "status": "proved",
   "theorems": [
    "Ecm.Props.C96_voce",
    "Ecm.Props.C96_step",
    "Ecm.Props.C96_hardening_between",
    "Ecm.Props.C96_hardening",
    "Ecm.Props.C96_contract"
   ],
   "note": "C96_step, C96_contract, C96_voce and C96_hardening are proved. The Newton iteration is a yardstick (SpecNewton), not a model of the solver library, which is not in the repository."
  },
  {
   "property": "C97",
   "status": "proved",
   "theorems": [
    "Ecm.Props.C97_failed",
    "Ecm.Props.C97_failed_rates",
    "Ecm.Props.C97_refuted_mixture",
    "Ecm.Props.C97_arrays",
    "Ecm.Props.C97_refuted_short",
    "Ecm.Props.C97_refuted_strided",
    "Ecm.Props.C97_setup",
    "Ecm.Props.C97_evaluation",
    "Ecm.Props.C97_state",
    "Ecm.Props.C97_residual",
    "Ecm.Props.C97_results",
    "Ecm.Props.C97_batch",
    "Ecm.Props.C97_refuted_energy",
    "Ecm.Props.C97_refuted_work",
    "Ecm.Props.C97_refuted_twice",
    "Ecm.Props.C97_last",
    "Ecm.Props.C97_point",
    "Ecm.Props.C97_solve",
    "Ecm.Props.C97_refuted_other",
    "Ecm.Props.C97_refuted_stale",
    "Ecm.Props.C97_script",
    "Ecm.Props.C97_refuted_unchecked",
    "Ecm.Props.C97_refuted_idle"
   ],
   "note": "C97_setup, C97_evaluation, C97_state, C97_residual, C97_results, C97_batch, C97_last, C97_point, C97_solve, C97_script, C97_failed and C97_arrays are proved; the rest is false (C97_refuted_energy, C97_refuted_work, C97_refuted_twice, C97_refuted_other, C97_refuted_stale, C97_refuted_mixture, C97_refuted_unchecked, C97_refuted_idle, C97_refuted_short, C97_refuted_strided; findings 44 to 47)."
  },
  {
   "property": "C98",
   "status": "proved",
   "theorems": [
    "Ecm.Props.C98_newton",
    "Ecm.Props.C98_step",
    "Ecm.Props.C98_exists",
    "AxialRun.C98_orientation",
    "AxialRun.C98_limit",
    "AxialRun.C98_range",
    "AxialRun.C98_strength",
    "AxialRun.C98_flow",
    "AxialRun.C98_history"
   ],
   "note": "C98_newton, C98_step, C98_exists, C98_history (every step succeeds), C98_orientation, C98_range, C98_limit, C98_strength and C98_flow."
  },
  {
   "property": "C99",
   "status": "proved",
   "theorems": [
    "Ecm.Props.C99_solution",
    "Ecm.Props.C99_update",
    "Ecm.Props.C99_exists",
    "Ecm.Props.C99_fade",
    "Ecm.Props.C99_uniform",
    "Ecm.Props.C99_vals",
    "Ecm.Props.C99_problem",
    "Ecm.Props.C99_response",
    "Ecm.Props.C99_params",
    "Ecm.Props.C99_refuted_params",
    "Ecm.Props.C99_refuted_model"
   ],
   "note": "C99_solution, C99_update, C99_exists, C99_fade, C99_uniform, C99_vals, C99_problem, C99_response, C99_params. Negations: C99_refuted_params (nonlinear), C99_refuted_model (a model with more than one slip system cannot be initialised)."
  },
  {
   "property": "C100",
   "status": "proved",
   "theorems": [
    "Ecm.Props.C100_mix",
    "Ecm.Props.C100_newton",
    "Ecm.Props.C100_equations",
    "Ecm.Props.C100_step",
    "Ecm.Props.C100_history",
    "Ecm.Props.C100_voce",
    "Ecm.Props.C100_kmbald",
    "Ecm.Props.C100_cubic",
    "Ecm.Props.C100_hexagonal",
    "Ecm.Props.C100_noAxis",
    "Ecm.Props.C100_tensors",
    "Ecm.Props.C100_crystals",
    "Ecm.Props.C100_stretched",
    "Ecm.Props.C100_diagonal",
    "Ecm.Props.C100_hexAxis",
    "Ecm.Props.C100_finder",
    "Ecm.Props.C100_solution",
    "Ecm.Props.C100_found",
    "Ecm.Props.C100_runs"
   ],
   "note": "C100_mix, C100_newton, C100_equations, C100_step, C100_history, C100_voce, C100_kmbald, C100_cubic, C100_hexagonal, C100_noAxis, C100_tensors, C100_crystals, C100_stretched, C100_diagonal, C100_hexAxis, C100_finder, C100_solution, C100_found, C100_runs."
  },
  {
   "property": "C101",
   "status": "proved",
   "theorems": [
    "Ecm.Props.C101_observer",
    "Ecm.Props.C101_tangent",
    "Ecm.Props.C101_frame"
   ],
   "note": "C101_observer, C101_tangent, C101_frame."
  },
  {
   "property": "C102",
   "status": "proved",
   "theorems": [
    "Ecm.Props.C102_matrix",
    "Ecm.Props.C102_newton",
    "Ecm.Props.C102_mix",
    "Ecm.Props.C102_turned",
    "Ecm.Props.C102_tangent",
    "Ecm.Props.C102_update",
    "Ecm.Props.C102_plain",
    "Ecm.Props.C102_slopes",
    "Ecm.Props.C102_shared"
   ],
   "note": "C102_matrix, C102_newton, C102_mix, C102_turned, C102_tangent, C102_update, C102_plain, C102_slopes, C102_shared."
  },
  {
   "property": "C103",
   "status": "proved",
   "theorems": [
    "Ecm.Props.C103_number",
    "Ecm.Props.C103_accepts",
    "Ecm.Props.C103_lines",
    "Ecm.Props.C103_header",
    "Ecm.Props.C103_files",
    "Ecm.Props.C103_refuted_rest"
   ],
   "note": "C103_number, C103_accepts, C103_lines, C103_header, C103_files, C103_refuted_rest."
  },
  {
   "property": "C104",
   "status": "proved",
   "theorems": [
    "Ecm.Props.C104_gpu",
    "Ecm.Props.C104_same",
    "Ecm.Props.C104_cpu",
    "Ecm.Props.C104_refuted_openmp",
    "Ecm.Props.C104_incomplete",
    "Ecm.Props.C104_fallback",
    "Ecm.Props.C104_refuted"
   ],
   "note": "C104_same, C104_gpu, C104_cpu, C104_incomplete, C104_fallback, C104_refuted_openmp, C104_refuted."
  },
  {
   "property": "C105",
   "status": "proved",
   "theorems": [
    "Ecm.Props.C105_exact",
    "Ecm.Props.C105_pressure",
    "Ecm.Props.C105_temperature",
    "Ecm.Props.C105_bulk",
    "Ecm.Props.C105_energy",
    "Ecm.Props.C105_history",
    "Ecm.Props.C105_monotone",
    "Ecm.Props.C105_reference",
    "Ecm.Props.C105_bulk_pos",
    "Ecm.Props.C105_refuted_relative"
   ],
   "note": "C105_exact, C105_pressure, C105_temperature, C105_bulk, C105_energy, C105_history, C105_monotone, C105_reference, C105_bulk_pos, C105_refuted_relative."
  },
  {
   "property": "C106",
   "status": "proved",
   "theorems": [
    "Ecm.Props.C106_number",
    "Ecm.Props.C106_reads",
    "Ecm.Props.C106_nat",
    "Ecm.Props.C106_int",
    "Ecm.Props.C106_options",
    "Ecm.Props.C106_frame",
    "Ecm.Props.C106_line",
    "Ecm.Props.C106_output",
    "Ecm.Props.C106_log",
    "Ecm.Props.C106_refuted_log"
   ],
   "note": "C106_number, C106_reads, C106_nat, C106_line, C106_output, C106_log, C106_refuted_log."
  },
  {
   "property": "C107",
   "status": "proved",
   "theorems": [
    "Ecm.Props.C107_exact",
    "Ecm.Props.C107_residual",
    "Ecm.Props.C107_step",
    "Ecm.Props.C107_history",
    "Ecm.Props.C107_forgets",
    "Ecm.Props.C107_slope",
    "Ecm.Props.C107_saturation",
    "Ecm.Props.C107_attained"
   ],
   "note": "C107_exact, C107_residual, C107_step, C107_history, C107_forgets, C107_slope, C107_saturation, C107_attained. The norm of the residual is taken exactly; saturation above the initial strength is assumed, as is an exponent of the saturation law between zero and one."
  },
  {
   "property": "C108",
   "status": "proved",
   "theorems": [
    "Ecm.Props.C108_flags",
    "Ecm.Props.C108_restart",
    "Ecm.Props.C108_history",
    "Ecm.Props.C108_counter",
    "Ecm.Props.C108_refuted_minimal"
   ],
   "note": "C108_flags, C108_restart, C108_history, C108_counter, C108_refuted_minimal."
  },
  {
   "property": "C109",
   "status": "proved",
   "theorems": [
    "Ecm.Props.C109_exact",
    "Ecm.Props.C109_recovery",
    "Ecm.Props.C109_residual",
    "Ecm.Props.C109_step",
    "Ecm.Props.C109_history",
    "Ecm.Props.C109_attained",
    "Ecm.Props.C109_slope"
   ],
   "note": "C109_exact, C109_recovery, C109_residual, C109_step, C109_history, C109_attained, C109_slope. The norm of the residual is taken exactly; the exponent of the recovery law is between zero and one, and the increment found by the solver is bounded by Y."
  },
  {
   "property": "C110",
   "status": "proved",
   "theorems": [
    "Ecm.Props.C110_volume_any",
    "Ecm.Props.C110_volume",
    "Ecm.Props.C110_printed",
    "Ecm.Props.C110_order",
    "Ecm.Props.C110_zero",
    "Ecm.Props.C110_material_voce",
    "Ecm.Props.C110_material_km",
    "Ecm.Props.C110_ends",
    "Ecm.Props.C110_refuted_digits"
   ],
   "note": "C110_volume, C110_printed, C110_order, C110_zero, C110_material_voce, C110_material_km, C110_ends, C110_refuted_digits."
  },
  {
   "property": "C111",
   "status": "proved",
   "theorems": [
    "Ecm.Props.C111_voce",
    "Ecm.Props.C111_kmbald",
    "Ecm.Props.C111_step",
    "Ecm.Props.C111_stress",
    "Ecm.Props.C111_pressure",
    "Ecm.Props.C111_refuted_coupling"
   ],
   "note": "C111_step, C111_stress, C111_pressure, C111_voce, C111_kmbald; C111_refuted_coupling: material of the tests, probe solver, exact linear solver."
  },
  {
   "property": "C112",
   "status": "proved",
   "theorems": [
    "Ecm.Props.C112_printed",
    "Ecm.Props.C112_memory",
    "Ecm.Props.C112_step",
    "Ecm.Props.C112_pressure",
    "Ecm.Props.C112_expected",
    "Ecm.Props.C112_ends",
    "Ecm.Props.C112_direction",
    "Ecm.Props.C112_quotients",
    "Ecm.Props.C112_mean",
    "Ecm.Props.C112_volume",
    "Ecm.Props.C112_material",
    "Ecm.Props.C112_fd_ends"
   ],
   "note": "C112_printed, C112_step, C112_pressure, C112_expected, C112_ends, C112_direction, C112_quotients, C112_mean, C112_material, C112_fd_ends. That the comparison passes is not claimed."
  },
  {
   "property": "C113",
   "status": "proved",
   "theorems": [
    "Ecm.Props.C113_problem",
    "Ecm.Props.C113_halves",
    "Ecm.Props.C113_checks",
    "Ecm.Props.C113_refuted_rho",
    "Ecm.Props.C113_updst",
    "Ecm.Props.C113_same",
    "Ecm.Props.C113_passes",
    "Ecm.Props.C113_passes_back",
    "Ecm.Props.C113_can_pass",
    "Ecm.Props.C113_voce",
    "Ecm.Props.C113_fcc",
    "Ecm.Props.C113_hcp",
    "Ecm.Props.C113_bcc"
   ],
   "note": "C113_problem, C113_halves, C113_checks, C113_updst, C113_same, C113_passes, C113_passes_back, C113_can_pass, C113_voce, C113_fcc, C113_hcp, C113_bcc, C113_refuted_rho. What is assumed of the solver (StopsAtRoot, LimitFree) are structures with an example."
  },
  {
   "property": "C114",
   "status": "proved",
   "theorems": [
    "Ecm.Props.C114_material_voce",
    "Ecm.Props.C114_material_density",
    "Ecm.Props.C114_material_aniso",
    "Ecm.Props.C114_voce",
    "Ecm.Props.C114_aniso",
    "Ecm.Props.C114_density",
    "Ecm.Props.C114_refuted_first",
    "Ecm.Props.C114_refuted_contract",
    "Ecm.Props.C114_derivative"
   ],
   "note": "C114_material_voce, C114_material_density, C114_material_aniso, C114_voce, C114_aniso, C114_density, C114_derivative; C114_refuted_first and C114_refuted_contract are the limits. Newton's method is a definition (newtonAfter); that SNLS takes full Newton steps here is not shown."
  },
  {
   "property": "C115",
   "status": "proved",
   "theorems": [
    "Ecm.Props.C115_ratio",
    "Ecm.Props.C115_refuted_ratio",
    "Ecm.Props.C115_same_fill",
    "Ecm.Props.C115_same_miller",
    "Ecm.Props.C115_library",
    "Ecm.Props.C115_miss",
    "Ecm.Props.C115_worth",
    "Ecm.Props.C115_refuted_free",
    "Ecm.Props.C115_refuted_internal",
    "Ecm.Props.C115_protects",
    "Ecm.Props.C115_refuted_division"
   ],
   "note": "C115_same_fill, C115_same_miller, C115_library, C115_miss, C115_worth, C115_protects; the limits are C115_refuted_free, C115_refuted_internal, C115_refuted_division."
  },
  {
   "property": "C116",
   "status": "proved",
   "theorems": [
    "Ecm.Props.C116_vec",
    "Ecm.Props.C116_mat",
    "Ecm.Props.C116_columns",
    "Ecm.Props.C116_reads",
    "Ecm.Props.C116_sticky",
    "Ecm.Props.C116_refuted_sticky"
   ],
   "note": "C116_vec, C116_mat, C116_columns, C116_reads, C116_sticky; C116_refuted_sticky shows that later output changes. Infinities, NaN and the sign of a negative zero are not modelled."
  },
  {
   "property": "C117",
   "status": "proved",
   "theorems": [
    "Ecm.Props.C117_numbers",
    "Ecm.Props.C117_numbers_miller",
    "Ecm.Props.C117_numbers_fill",
    "Ecm.Props.C117_numbers_hcp",
    "Ecm.Props.C117_refuted_moduli",
    "Ecm.Props.C117_passes",
    "Ecm.Props.C117_passes_fill",
    "Ecm.Props.C117_refuted_ratio"
   ],
   "note": "C117_numbers, C117_numbers_miller, C117_numbers_fill, C117_numbers_hcp, C117_passes, C117_passes_fill; C117_refuted_moduli and C117_refuted_ratio show that NaN passes. What the solver does with a NaN is not modelled."
  },
  {
   "property": "C118",
   "status": "proved",
   "theorems": [
    "Ecm.Props.C118_km_numbers",
    "Ecm.Props.C118_km_stress",
    "Ecm.Props.C118_km_strength",
    "Ecm.Props.C118_numbers",
    "Ecm.Props.C118_numbers_update",
    "Ecm.Props.C118_swallowed",
    "Ecm.Props.C118_no_nan",
    "Ecm.Props.C118_refuted_strength",
    "Ecm.Props.C118_refuted_inactive",
    "Ecm.Props.C118_rate"
   ],
   "note": "C118_numbers, C118_numbers_update, C118_swallowed, C118_no_nan, C118_rate, C118_km_numbers, C118_km_stress, C118_km_strength; C118_refuted_strength and C118_refuted_inactive show what a NaN strength does. Infinities, the derivatives of the MTS law and what the solver does with a NaN are not modelled."
  }
 ]
}