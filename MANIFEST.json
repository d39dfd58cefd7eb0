{
 "claims": [
  {
   "property": "C01",
   "status": "proved",
   "theorems": [
    "Ross.Props.C01_material_consistent",
    "Ross.Props.C01_material_accepts_iff",
    "Ross.Props.C01_material_rejects"
   ],
   "note": ""
  },
  {
   "property": "C02",
   "status": "proved",
   "theorems": [
    "Ross.Props.C02_load_denotes",
    "Ross.Props.C02_available",
    "Ross.Props.C02_reads_pure",
    "Ross.Props.C02_space_name_not_loadable"
   ],
   "note": ""
  },
  {
   "property": "C03",
   "status": "proved",
   "theorems": [
    "Ross.Props.C03_from_geometry",
    "Ross.Props.C03_positive",
    "Ross.Props.C03_mass",
    "Ross.Props.C03_gyro",
    "Ross.Props.C03_six_bending",
    "Ross.Props.C03_six",
    "Ross.Props.C03_from_table"
   ],
   "note": "Inertia data equal cylindrical volume integrals; matrices pinned by their action on every vector."
  },
  {
   "property": "C04",
   "status": "proved",
   "theorems": [
    "Ross.Props.C04_volume",
    "Ross.Props.C04_beam_cg",
    "Ross.Props.C04_Im",
    "Ross.Props.C04_midspan",
    "Ross.Props.C04_shear",
    "Ross.Props.C04_accepts",
    "Ross.Props.C04_attributes"
   ],
   "note": "Geometry equals the integrals of the linearly tapered hollow section; acceptance characterised."
  },
  {
   "property": "C05",
   "status": "proved",
   "theorems": [
    "Ross.Props.C05_mass_galerkin",
    "Ross.Props.C05_mass_symm",
    "Ross.Props.C05_mass_posDef",
    "Ross.Props.C05_mass_posDef'"
   ],
   "note": "4-dof mass matrix is the Galerkin mass matrix of the Timoshenko shape functions (translational part only when rotary_inertia is off), symmetric, positive definite."
  },
  {
   "property": "C06",
   "status": "proved",
   "theorems": [
    "Ross.Props.C06_rigid_mass",
    "Ross.Props.C06_rigid_mass_m"
   ],
   "note": "Rigid translations feel exactly the element mass."
  },
  {
   "property": "C07",
   "status": "proved",
   "theorems": [
    "Ross.Props.C07_stiffness_galerkin",
    "Ross.Props.C07_stiffness_symm_iff",
    "Ross.Props.C07_stiffness_nonneg",
    "Ross.Props.C07_energy_free"
   ],
   "note": "Bending, shear, axial-force and torque parts; symmetric iff torque = 0; energy vanishes exactly on rigid motions."
  },
  {
   "property": "C08",
   "status": "proved",
   "theorems": [
    "Ross.Props.C08_rigid_translation",
    "Ross.Props.C08_rigid_rotation"
   ],
   "note": "Rigid-body kernels for every axial force and torque."
  },
  {
   "property": "C09",
   "status": "proved",
   "theorems": [
    "Ross.Props.C09_gyro_skew",
    "Ross.Props.C09_gyro_no_work",
    "Ross.Props.C09_gyro_galerkin",
    "Ross.Props.C09_gyro6_skew",
    "Ross.Props.C09_Kst_gyro"
   ],
   "note": "4-dof and 6-dof gyroscopic matrices."
  },
  {
   "property": "C10",
   "status": "partial",
   "theorems": [
    "Ross.Props.C10_mass",
    "Ross.Props.C10_stiffness",
    "Ross.Props.C10_damping",
    "Ross.Props.C10_gyro_iff",
    "Ross.Props.C10_gyro_partial",
    "Ross.Props.C10_gyro_false"
   ],
   "note": "6-dof bending blocks agree with the 4-dof matrices except the gyroscopic one: shaft_element.py:1875 uses 7*phi*2 where the 4-dof element has 7*phi**2, so the claim is false in general (C10_gyro_false) and C10_gyro_iff says exactly when it holds."
  },
  {
   "property": "C11",
   "status": "partial",
   "theorems": [
    "Ross.Props.C11_uncoupled",
    "Ross.Props.C11_rigid_free",
    "Ross.Props.C11_axial_mass_iff",
    "Ross.Props.C11_rigid_inertia_partial",
    "Ross.Props.C11_false",
    "Ross.Props.C11_mass_posDef"
   ],
   "note": "Axial/torsional decoupling and rigid-body kernels hold; the inertia of a rigid axial motion equals the element mass only under the condition of C11_axial_mass_iff, and is false for tapered elements (C11_false)."
  },
  {
   "property": "C12",
   "status": "proved",
   "theorems": [
    "Ross.Props.C12_damping",
    "Ross.Props.C12_damping_dissipates"
   ],
   "note": "Proportional damping."
  },
  {
   "property": "C13",
   "status": "proved",
   "theorems": [
    "Ross.Props.C13_length",
    "Ross.Props.C13_taper",
    "Ross.Props.C13_cylinder",
    "Ross.Props.C13_joins",
    "Ross.Props.C13_volume",
    "Ross.Props.C13_mass",
    "Ross.Props.C13_accepts"
   ],
   "note": "Splitting a section."
  },
  {
   "property": "C14",
   "status": "proved",
   "theorems": [
    "Ross.Props.C14_attributes",
    "Ross.Props.C14_stiffness",
    "Ross.Props.C14_damping",
    "Ross.Props.C14_mass",
    "Ross.Props.C14_gyro",
    "Ross.Props.C14_action_reaction",
    "Ross.Props.C14_support_unique",
    "Ross.Props.C14_six"
   ],
   "note": "Relative to the stated scipy contract (Spec.ScipyContract); frequency tables increasing and distinct."
  },
  {
   "property": "C15",
   "status": "partial",
   "theorems": [
    "Ross.Props.C15_accepts_iff",
    "Ross.Props.C15_rejects",
    "Ross.Props.C15_evaluates_partial",
    "Ross.Props.C15_evaluates_false",
    "Ross.Props.C15_six_false"
   ],
   "note": "Acceptance is characterised exactly, but constructed bearings cannot always be evaluated: non-increasing tables with more than three rows, and axial tables of the wrong length in the 6-dof class, leave the interpolant None (proved as negations)."
  },
  {
   "property": "C16",
   "status": "proved",
   "theorems": [
    "Ross.Props.C16_init",
    "Ross.Props.C16_refused",
    "Ross.Props.C16_init6",
    "Ross.Props.C16_matrices",
    "Ross.Props.C16_matrices6"
   ],
   "note": "Constructor outcomes and matrices."
  },
  {
   "property": "C17",
   "status": "partial",
   "theorems": [
    "Ross.Props.C17_slot_bijective",
    "Ross.Props.C17_ndof",
    "Ross.Props.C17_elements",
    "Ross.Props.C17_index",
    "Ross.Props.C17_distinct",
    "Ross.Props.C17_range_partial",
    "Ross.Props.C17_shared_partial",
    "Ross.Props.C17_cover_partial",
    "Ross.Props.C17_disagree_range",
    "Ross.Props.C17_disagree_link",
    "Ross.Props.C17_disagree_shared"
   ],
   "note": "Numbering of dofs proved for every constructed rotor whose point masses have the dofs of the rotor; the constructor does not check point masses or link nodes, and the negations show the unrestricted claim fails there."
  },
  {
   "property": "C18",
   "status": "proved",
   "theorems": [
    "Ross.Props.C18_mass",
    "Ross.Props.C18_stiffness",
    "Ross.Props.C18_damping",
    "Ross.Props.C18_gyro",
    "Ross.Props.C18_transient",
    "Ross.Props.C18_ignore",
    "Ross.Props.C18_assembles_iff",
    "Ross.Props.C18_order",
    "Ross.Props.C18_symm",
    "Ross.Props.C18_gyro_skew"
   ],
   "note": "Virtual work of every rotor matrix is the sum of the element works at the dofs each element acts on; exact success condition; order independence; ignore lists; symmetry."
  },
  {
   "property": "C19",
   "status": "proved",
   "theorems": [
    "Ross.Props.C19_energy",
    "Ross.Props.C19_total_mass",
    "Ross.Props.describes_exists"
   ],
   "note": "Energy of a unit translation of all nodes along x or y."
  },
  {
   "property": "C20",
   "status": "proved",
   "theorems": [
    "Ross.Props.C20_nodes",
    "Ross.Props.C20_auto",
    "Ross.Props.C20_layers",
    "Ross.Props.C20_CG"
   ],
   "note": "Node positions, automatic numbering, layers and centre of gravity of every constructed rotor."
  },
  {
   "property": "C21",
   "status": "proved",
   "theorems": [
    "Ross.Props.C21_tags",
    "Ross.Props.C21_duplicate"
   ],
   "note": "Tags are unique and duplicates are refused with ValueError."
  },
  {
   "property": "C22",
   "status": "partial",
   "theorems": [
    "Ross.Props.C22_terminates",
    "Ross.Props.C22_outside",
    "Ross.Props.C22_disk_off_shaft",
    "Ross.Props.C22_unconnected",
    "Ross.Props.C22_two_bearings_last_refused",
    "Ross.Props.C22_accepts",
    "Ross.Props.C22_coaxial_ends_partial",
    "Ross.Props.C22_coaxial_diverges",
    "Ross.Props.C22_coaxial_false"
   ],
   "note": "Rotor: construction always ends, refuses elements off the shaft and accepts well-formed rotors; two bearings on the last node are refused although nothing forbids them (C22_two_bearings_last_refused). CoAxialRotor: the property is false, construction runs forever when an element is on a node nothing else touches (C22_coaxial_diverges, C22_coaxial_false); C22_coaxial_ends_partial covers the rest."
  },
  {
   "property": "C23",
   "status": "proved",
   "theorems": [
    "Ross.Props.C23_exists_iff",
    "Ross.Props.C23_state",
    "Ross.Props.C23_motion",
    "Ross.Props.C23_eigen"
   ],
   "note": "State matrix exists iff M is invertible, its trajectories are those of the second-order equation, its eigenpairs are the modes."
  },
  {
   "property": "C24",
   "status": "proved",
   "theorems": [
    "Ross.Props.C24_transfer",
    "Ross.Props.C24_freq_response"
   ],
   "note": "scipy.linalg.eig is a parameter with the contract LapackOk; the determinant hypothesis says j*omega is no eigenvalue."
  },
  {
   "property": "C25",
   "status": "partial",
   "theorems": [
    "Ross.Props.C25_selected",
    "Ross.Props.C25_first_partial",
    "Ross.Props.C25_false"
   ],
   "note": "Proved for selections of the first m modes; C25_selected says what every other selection computes (conjugates of the first modes instead of the selected ones) and C25_false shows a system for which the claim fails."
  },
  {
   "property": "C26",
   "status": "partial",
   "theorems": [
    "Ross.Props.C26_force",
    "Ross.Props.C26_forced",
    "Ross.Props.C26_motion",
    "Ross.Props.C26_superposition",
    "Ross.Props.C26_scaling",
    "Ross.Props.C26_support_false"
   ],
   "note": "Force placement proved for unbalances on shaft nodes; C26_support_false: on the second support node the force is refused or put on the third."
  },
  {
   "property": "C27",
   "status": "partial",
   "theorems": [
    "Ross.Props.C27_motion",
    "Ross.Props.C27_defaults",
    "Ross.Props.C27_converges",
    "Ross.Props.C27_solvable",
    "Ross.Props.C27_tolerance",
    "Ross.Props.C27_energy",
    "Ross.Props.C27_decay",
    "Ross.Props.C27_integer_time",
    "Ross.Props.C27_integer_false"
   ],
   "note": "Proved for every float time array. C27_integer_false: for an integer time array the returned displacements are truncated to integers, so the claim fails there (disagreement)."
  },
  {
   "property": "C28",
   "status": "proved",
   "theorems": [
    "Ross.Props.C28_forces",
    "Ross.Props.C28_moments",
    "Ross.Props.C28_reactions",
    "Ross.Props.C28_weights",
    "Ross.Props.C28_runs"
   ],
   "note": "Point masses stand on supports and do not take part. Two bearings at different nodes suffice for success; bearings linking two shaft nodes are outside the balance theorems."
  },
  {
   "property": "C29",
   "status": "partial",
   "theorems": [
    "Ross.Props.C29_tiles",
    "Ross.Props.C29_sections_partial",
    "Ross.Props.C29_positions_partial",
    "Ross.Props.C29_nodes_partial",
    "Ross.Props.C29_disks",
    "Ross.Props.C29_bearings",
    "Ross.Props.C29_accepts_partial",
    "Ross.Props.C29_modal_partial",
    "Ross.Props.C29_elements_partial",
    "Ross.Props.C29_nested_partial",
    "Ross.Props.C29_rayleigh_partial",
    "Ross.Props.C29_history",
    "Ross.Props.C29_taper_false",
    "Ross.Props.C29_supports_false",
    "Ross.Props.C29_six_false",
    "Ross.Props.C29_layers",
    "Ross.Props.C29_layers_false"
   ],
   "note": "Tiling, disks, bearings and the history are proved for every rotor. Sections for cylindrical elements; positions for single-layer shafts; construction, modal analysis and equality of energies for 4-dof rotors of cylinders on bearings to ground. Missing because false in the code (proved): tapered elements, flexible supports, 6-dof rotors, layered shafts."
  },
  {
   "property": "C30",
   "status": "partial",
   "theorems": [
    "Ross.Props.C30_roundtrip_partial",
    "Ross.Props.C30_magnetic",
    "Ross.Props.C30_seal_partial",
    "Ross.Props.C30_seal_false",
    "Ross.Props.C30_pm6_false",
    "Ross.Props.C30_rolling_false",
    "Ross.Props.C30_cylindrical_false",
    "Ross.Props.C30_cylindrical_partial",
    "Ross.Props.C30_fluidflow_false",
    "Ross.Props.C30_other_tables",
    "Ross.Props.C30_shared_false"
   ],
   "note": "Proved for shaft elements, disks, point masses, bearings (4 and 6 dof) and magnetic bearings, all fields, every value a constructor returns: the loaded element equals the saved one. The property is false of seals (scale factor halved), 6-dof point masses, ball, roller and fluid-film bearings (cannot be saved), cylindrical bearings (saved but never loaded; without the coefficients the file loads: C30_cylindrical_partial) and files with several elements: proved. Contract: toml drops None and keeps every other value."
  },
  {
   "property": "C31",
   "status": "partial",
   "theorems": [
    "Ross.Props.C31_roundtrip_partial",
    "Ross.Props.C31_reread_partial",
    "Ross.Props.C31_tables",
    "Ross.Props.C31_tag_false",
    "Ross.Props.C31_seal_false",
    "Ross.Props.C31_pm6_false"
   ],
   "note": "Proved for every rotor of elements that constructors have returned, without seals and 6-dof point masses: the loaded rotor equals the saved one in every field except the tag. With seals: equal up to halved scale factors, which makes the property false of them. The tag is lost, and rotors with 6-dof point masses cannot be saved: proved."
  },
  {
   "property": "C32",
   "status": "proved",
   "theorems": [
    "Ross.Props.C32_quantity",
    "Ross.Props.C32_same",
    "Ross.Props.C32_plain",
    "Ross.Props.C32_untouched",
    "Ross.Props.C32_once",
    "Ross.Props.C32_style",
    "Ross.Props.C32_calls",
    "Ross.Props.C32_surplus",
    "Ross.Props.C32_surplus_false",
    "Ross.Props.C32_coherent"
   ],
   "note": "For every name, value, unit and signature. Beyond the statement: surplus positional arguments are dropped silently (C32_surplus_false)."
  },
  {
   "property": "C33",
   "status": "partial",
   "theorems": [
    "Ross.Props.C33_read_partial",
    "Ross.Props.C33_accepts_partial",
    "Ross.Props.C33_accepts_model_partial",
    "Ross.Props.C33_materials_partial",
    "Ross.Props.C33_unique",
    "Ross.Props.C33_no_header",
    "Ross.Props.C33_no_data",
    "Ross.Props.C33_missing",
    "Ross.Props.C33_factors",
    "Ross.Props.C33_int_false",
    "Ross.Props.C33_rpm_false",
    "Ross.Props.C33_optional_false",
    "Ross.Props.C33_shaft_n_false",
    "Ross.Props.C33_torque_false"
   ],
   "note": "Every successful reading returns the rows of the first numeric block below the header, in order, from the documented columns and with the documented conversions; sheets are accepted whenever the stated conditions hold. The property fails for tables of whole numbers only, for rpm below header and units, and for tables that leave out certain optional columns."
  },
  {
   "property": "C34",
   "status": "proved",
   "theorems": [
    "Ross.Props.C34_exact",
    "Ross.Props.C34_sound",
    "Ross.Props.C34_complete",
    "Ross.Props.C34_errors",
    "Ross.Props.C34_swap",
    "Ross.Props.C34_vertex"
   ],
   "note": "Curves without NaN. Parallel and overlapping segments are never reported (C34_exact is an equivalence); a crossing in a shared vertex is reported once per segment (C34_vertex)."
  },
  {
   "property": "C35",
   "status": "proved",
   "theorems": [
    "Ross.Props.C35_probe_valid",
    "Ross.Props.C35_probe_accepts"
   ],
   "note": "Probe validation."
  },
  {
   "property": "C36",
   "status": "partial",
   "theorems": [
    "Ross.Props.C36_index",
    "Ross.Props.C36_odd",
    "Ross.Props.C36_conj",
    "Ross.Props.C36_distinct",
    "Ross.Props.C36_eigen",
    "Ross.Props.C36_exact_false"
   ],
   "note": "Proved for the eigenvalues rounded to ten decimals, as the code sorts them. C36_exact_false: for the unrounded eigenvalues the first half can contain a negative imaginary part. An odd number of eigenvalues is refused (C36_odd)."
  },
  {
   "property": "C37",
   "status": "proved",
   "theorems": [
    "Ross.Props.C37_points",
    "Ross.Props.C37_sides"
   ],
   "note": "From the damped natural frequencies and damping ratios that run_critical_speed returns; np.sort is a sorted permutation."
  },
  {
   "property": "C38",
   "status": "partial",
   "theorems": [
    "Ross.Props.C38_equilibrium",
    "Ross.Props.C38_polynomial",
    "Ross.Props.C38_accept",
    "Ross.Props.C38_eccentricity",
    "Ross.Props.C38_sommerfeld",
    "Ross.Props.C38_coefficients",
    "Ross.Props.C38_matrix",
    "Ross.Props.C38_damping",
    "Ross.Props.C38_attitude",
    "Ross.Props.C38_attitude_false",
    "Ross.Props.C38_zero_false",
    "Ross.Props.C38_reverse"
   ],
   "note": "Unique rest position in the Ocvirk film, the polynomial is its balance, each positive speed gets its eccentricity and coefficients, and the coefficients are minus the partial derivatives of the film force; damping positive definite. False for the attitude angle (C38_attitude_false) and for speed zero (C38_zero_false). C38_matrix covers tables of up to three speeds, beyond which scipy smooths."
  },
  {
   "property": "C39",
   "status": "partial",
   "theorems": [
    "Ross.Props.C39_ball",
    "Ross.Props.C39_roller",
    "Ross.Props.C39_ball_positive_partial",
    "Ross.Props.C39_ball_positive_false",
    "Ross.Props.C39_roller_positive_partial",
    "Ross.Props.C39_roller_positive_false",
    "Ross.Props.C39_magnetic",
    "Ross.Props.C39_magnetic_stable",
    "Ross.Props.C39_magnetic_list_false"
   ],
   "note": "Stiffness laws, ratios, default damping and absence of cross coupling; magnetic stiffness and damping are the derivatives of the force of the controlled magnets. Positivity holds for 2 to 34 balls and 2 to 33 rollers and fails for all other numbers; lists of three items are accepted by the magnetic bearing."
  },
  {
   "property": "C40",
   "status": "proved",
   "theorems": [
    "Ross.Props.C40_rk4_order",
    "Ross.Props.C40_rk45_order",
    "Ross.Props.C40_rk4_linear",
    "Ross.Props.C40_rk45_linear",
    "Ross.Props.C40_rk4_columns",
    "Ross.Props.C40_rk45_columns",
    "Ross.Props.C40_runs",
    "Ross.Props.C40_rk4_converges",
    "Ross.Props.C40_rk45_converges",
    "Ross.Props.C40_sampled_force"
   ],
   "note": "Butcher order conditions (four and five) for every right-hand side, the exact Taylor polynomial on linear systems, the returned columns, and convergence with order four and five on every homogeneous linear system. C40_sampled_force: a force that depends on the step number only is held at its end-of-step value, so forced responses are integrated by the rectangle rule."
  },
  {
   "property": "C41",
   "status": "partial",
   "theorems": [
    "Ross.Props.C41_free",
    "Ross.Props.C41_contact_partial",
    "Ross.Props.C41_node",
    "Ross.Props.C41_size",
    "Ross.Props.C41_nan",
    "Ross.Props.C41_tangent_iff",
    "Ross.Props.C41_against_false",
    "Ross.Props.C41_run"
   ],
   "note": "Zero below the clearance, only on the rubbing node, elastic part towards the centre, friction of size mu*N: proved. The friction is tangential only for equal components (C41_tangent_iff), can push along the sliding (C41_against_false) and the force is NaN at rest (C41_nan)."
  },
  {
   "property": "C42",
   "status": "partial",
   "theorems": [
    "Ross.Props.C42_nodes",
    "Ross.Props.C42_combined_partial",
    "Ross.Props.C42_torque_false",
    "Ross.Props.C42_accepts",
    "Ross.Props.C42_angular_zero",
    "Ross.Props.C42_angular",
    "Ross.Props.C42_angular_pitch",
    "Ross.Props.C42_parallel",
    "Ross.Props.C42_pitch_false",
    "Ross.Props.C42_opposite",
    "Ross.Props.C42_kind",
    "Ross.Props.C42_named",
    "Ross.Props.C42_radius",
    "Ross.Props.C42_run",
    "Ross.Props.C42_rigid",
    "Ross.Props.C42_rigid_zero",
    "Ross.Props.C42_rigid_coupling",
    "Ross.Props.C42_rigid_step",
    "Ross.Props.C42_rigid_run"
   ],
   "note": "Internal transverse forces, combined = sum: proved for every type and for the rigid coupling. The combined type applies the torques twice (C42_torque_false)."
  },
  {
   "property": "C43",
   "status": "partial",
   "theorems": [
    "Ross.Props.C43_samples",
    "Ross.Props.C43_columns",
    "Ross.Props.C43_partial",
    "Ross.Props.C43_false"
   ],
   "note": "The lengths agree exactly when the interval is a whole number of steps; otherwise the time vector has one sample more (C43_false: witness)."
  },
  {
   "property": "C44",
   "status": "partial",
   "theorems": [
    "Ross.Props.C44_size",
    "Ross.Props.C44_entries",
    "Ross.Props.C44_kept",
    "Ross.Props.C44_list",
    "Ross.Props.C44_directions",
    "Ross.Props.C44_mass",
    "Ross.Props.C44_stiffness",
    "Ross.Props.C44_damping",
    "Ross.Props.C44_convert",
    "Ross.Props.C44_counterpart",
    "Ross.Props.C44_gyro_partial",
    "Ross.Props.C44_state_partial"
   ],
   "note": "Everything is proved for all matrices and rotors except the gyroscopic matrix (hence the state matrix) of rotors with conical gyroscopic elements: there the 4-dof and 6-dof element matrices themselves differ (Ross.Props.C10_gyro_false)."
  },
  {
   "property": "C45",
   "status": "partial",
   "theorems": [
    "Ross.Props.C45_tiles",
    "Ross.Props.C45_positions",
    "Ross.Props.C45_mass",
    "Ross.Props.C45_disks",
    "Ross.Props.C45_bearings",
    "Ross.Props.C45_rest",
    "Ross.Props.C45_errors",
    "Ross.Props.C45_accepts",
    "Ross.Props.C45_rejects_partial",
    "Ross.Props.C45_lengths_false",
    "Ross.Props.C45_optional_false"
   ],
   "note": "Tiling, positions, total length, mass, disks, bearings, errors and acceptance for every list of sections and nel_r. Rejection of inconsistent lists is false for idr_data given without odr_data (C45_lengths_false), proved otherwise (C45_rejects_partial)."
  },
  {
   "property": "C46",
   "status": "partial",
   "theorems": [
    "Ross.Props.C46_synchronous_partial",
    "Ross.Props.C46_response_partial",
    "Ross.Props.C46_six_false"
   ],
   "note": "Proved for every 4-dof rotor; false for 6-dof rotors (C46_six_false)."
  },
  {
   "property": "C47",
   "status": "proved",
   "theorems": [
    "Ross.Props.C47_forms",
    "Ross.Props.C47_state",
    "Ross.Props.C47_stable",
    "Ross.Props.C47_undamped",
    "Ross.Props.C47_damped",
    "Ross.Props.C47_stiffness_pos",
    "Ross.Props.C47_damping_pos",
    "Ross.Props.C47_asymptotic",
    "Ross.Props.C47_mass"
   ],
   "note": "Passive rotors: positive forms, stability, asymptotic stability."
  },
  {
   "property": "C48",
   "status": "proved",
   "theorems": [
    "Ross.Props.C48_eigen",
    "Ross.Props.C48_modal"
   ],
   "note": "Eigenvalue solvers are parameters with the contract LapackOk."
  },
  {
   "property": "C49",
   "status": "proved",
   "theorems": [
    "Ross.Props.C49_complete",
    "Ross.Props.C49_transfer"
   ],
   "note": "scipy.linalg.eig is a parameter with the contracts LapackOk and Full."
  },
  {
   "property": "C50",
   "status": "proved",
   "theorems": [
    "Ross.Props.C50_constant",
    "Ross.Props.C50_runup",
    "Ross.Props.C50_ramp",
    "Ross.Props.C50_passive",
    "Ross.Props.C50_options",
    "Ross.Props.C50_runup_runs"
   ],
   "note": "Direct method (no num_modes). The mass matrix is the one at frequency zero, as in the code. time_response with the default method at constant speed delegates to scipy.signal.lsim, which is not modelled."
  },
  {
   "property": "C51",
   "status": "proved",
   "theorems": [
    "Ross.Props.C51_uncoupled",
    "Ross.Props.C51_modes",
    "Ross.Props.C51_galerkin",
    "Ross.Props.C51_passive",
    "Ross.Props.C51_linked",
    "Ross.Props.C51_runup",
    "Ross.Props.C51_runup_runs"
   ],
   "note": "scipy.linalg.eigh is a parameter with the contract EighOk (shown satisfiable by eigh_exists). C51_linked: rotors with linked bearings are refused."
  },
  {
   "property": "C52",
   "status": "partial",
   "theorems": [
    "Ross.Props.C52_shear_partial",
    "Ross.Props.C52_bending_partial",
    "Ross.Props.C52_shear",
    "Ross.Props.C52_shear_iff",
    "Ross.Props.C52_bending",
    "Ross.Props.C52_bending_iff",
    "Ross.Props.C52_taper_false",
    "Ross.Props.C52_single",
    "Ross.Props.C52_single_false"
   ],
   "note": "For at least two elements between the ends, what is reported is given exactly for elements of any form: the diagrams are those of equilibrium if and only if certain sums, proportional to the growth of the sections, vanish, as for cylinders. False of the code for cones (C52_taper_false) and for a single element (C52_single_false)."
  },
  {
   "property": "C53",
   "status": "partial",
   "theorems": [
    "Ross.Props.C53_speed",
    "Ross.Props.C53_force_partial",
    "Ross.Props.C53_accepts",
    "Ross.Props.C53_mirror",
    "Ross.Props.C53_direction_false"
   ],
   "note": "Speed, size and place of the unbalance: proved. The force rotates against the rotor: it is the mirror image of the one run_unbalance_response applies."
  },
  {
   "property": "C54",
   "status": "partial",
   "theorems": [
    "Ross.Props.C54_kind",
    "Ross.Props.C54_table",
    "Ross.Props.C54_lookup",
    "Ross.Props.C54_shipped",
    "Ross.Props.C54_stiffness",
    "Ross.Props.C54_softer_partial",
    "Ross.Props.C54_whole",
    "Ross.Props.C54_deeper",
    "Ross.Props.C54_shipped_partial",
    "Ross.Props.C54_long",
    "Ross.Props.C54_stiffer_false",
    "Ross.Props.C54_opposite",
    "Ross.Props.C54_mayes",
    "Ross.Props.C54_mayes_between",
    "Ross.Props.C54_gasch",
    "Ross.Props.C54_node",
    "Ross.Props.C54_balance",
    "Ross.Props.C54_moment_false",
    "Ross.Props.C54_rigid_false",
    "Ross.Props.C54_axial_false",
    "Ross.Props.C54_run"
   ],
   "note": "Accepted arguments, table look-up for every depth, place of the force, balance of the translations, breathing, softening (exact criterion; with the shipped table for elements that are not short): proved. False of the code: a crack of depth zero exerts a force (C54_rigid_false, C54_axial_false), moments are not balanced (C54_moment_false), a deep crack stiffens a short element (C54_stiffer_false)."
  },
  {
   "property": "C55",
   "status": "proved",
   "theorems": [
    "Ross.Props.C55_modes",
    "Ross.Props.C55_equation",
    "Ross.Props.C55_run",
    "Ross.Props.C55_runs"
   ],
   "note": "EighLower is the contract of scipy.linalg.eigh (reads the lower triangle); shown satisfiable by eighLower_exists. In the step from k to k+1 the forces are those of the sample k+1."
  },
  {
   "property": "C56",
   "status": "proved",
   "theorems": [
    "Ross.Props.C56_axes",
    "Ross.Props.C56_ratio",
    "Ross.Props.C56_circle",
    "Ross.Props.C56_points",
    "Ross.Props.C56_major_point"
   ],
   "note": "LapackOk is the contract of numpy.linalg.eig; shown satisfiable by lapack_exists."
  },
  {
   "property": "C57",
   "status": "partial",
   "theorems": [
    "Ross.Props.C57_kappa",
    "Ross.Props.C57_whirl_partial",
    "Ross.Props.C57_line_false"
   ],
   "note": "kappa and the word for ellipses: proved. False of the code: a node that moves on a line is called Backward."
  },
  {
   "property": "C58",
   "status": "proved",
   "theorems": [
    "Ross.Props.C58_scale",
    "Ross.Props.C58_rotate",
    "Ross.Props.C58_reverse"
   ],
   "note": ""
  },
  {
   "property": "C59",
   "status": "partial",
   "theorems": [
    "Ross.Props.C59_amplitude",
    "Ross.Props.C59_circle_partial",
    "Ross.Props.C59_phase_partial",
    "Ross.Props.C59_line_false",
    "Ross.Props.C59_negative",
    "Ross.Props.C59_period_false",
    "Ross.Props.C59_phase_false"
   ],
   "note": "Proved for circles. False of the code for other orbits: the amplitude is the distance of the point seen at this angle, not the projection; negative angles are not brought into the range; the phase is that of the sampled point."
  },
  {
   "property": "C60",
   "status": "partial",
   "theorems": [
    "Ross.Props.C60_normalized",
    "Ross.Props.C60_unit",
    "Ross.Props.C60_modes",
    "Ross.Props.C60_raw",
    "Ross.Props.C60_scale",
    "Ross.Props.C60_axial",
    "Ross.Props.C60_type",
    "Ross.Props.C60_type_false"
   ],
   "note": "Normalization and its independence of the factor: proved. Exact meaning of the type: proved; it depends on the arbitrary factor (C60_type_false). Purely axial vectors are refused (C60_axial)."
  },
  {
   "property": "C61",
   "status": "proved",
   "theorems": [
    "Ross.Props.C61_accepts",
    "Ross.Props.C61_nodes",
    "Ross.Props.C61_continuous",
    "Ross.Props.C61_cubic"
   ],
   "note": ""
  },
  {
   "property": "C62",
   "status": "partial",
   "theorems": [
    "Ross.Props.C62_orbits",
    "Ross.Props.C62_whirl_partial",
    "Ross.Props.C62_direction_partial",
    "Ross.Props.C62_thin_false",
    "Ross.Props.C62_values"
   ],
   "note": "Proved when no orbit is thinner than one in a thousand. False for thin clockwise orbits: the mode is Forward and its shape Backward (C62_thin_false)."
  },
  {
   "property": "C63",
   "status": "partial",
   "theorems": [
    "Ross.Props.C63_radial_partial",
    "Ross.Props.C63_axial_partial",
    "Ross.Props.C63_table",
    "Ross.Props.C63_orbit_partial",
    "Ross.Props.C63_linked_false"
   ],
   "note": "Proved for nodes of the shaft that no bearing is linked to and for supports. False of the code for a node of the shaft that a bearing is linked to: another degree of freedom is read."
  },
  {
   "property": "C64",
   "status": "partial",
   "theorems": [
    "Ross.Props.C64_magnitude_partial",
    "Ross.Props.C64_columns",
    "Ross.Props.C64_axial",
    "Ross.Props.C64_support_false"
   ],
   "note": "Proved for nodes of the shaft; what amplitude and phase of an orbit mean is C59. False of the code for supports: the probe raises an error."
  },
  {
   "property": "C65",
   "status": "partial",
   "theorems": [
    "Ross.Props.C65_axes",
    "Ross.Props.C65_orbit",
    "Ross.Props.C65_angle",
    "Ross.Props.C65_node_partial",
    "Ross.Props.C65_probe_false"
   ],
   "note": "Axes: proved. False of the code for numeric angles: the angle is a phase of the vibration, not the direction of a probe; C65_node_partial lacks nodes of the shaft that bearings are linked to (C63_linked_false)."
  },
  {
   "property": "C66",
   "status": "partial",
   "theorems": [
    "Ross.Props.C66_moment",
    "Ross.Props.C66_ends_partial",
    "Ross.Props.C66_interior_false"
   ],
   "note": "Exact value at every node: C66_moment. It is the bending moment at the ends of the shaft; false of the code between them, where the moments of both adjacent elements are added."
  },
  {
   "property": "C67",
   "status": "partial",
   "theorems": [
    "Ross.Props.C67_shaft",
    "Ross.Props.C67_material",
    "Ross.Props.C67_pointMass",
    "Ross.Props.C67_disk_partial",
    "Ross.Props.C67_disk_false",
    "Ross.Props.C67_bearing",
    "Ross.Props.C67_frequency"
   ],
   "note": "Proved for shaft elements, materials, point masses and bearings. Disks: nodes, masses, inertias and tags proved; false of the code for the colour, which is taken for the scale factor."
  },
  {
   "property": "C68",
   "status": "partial",
   "theorems": [
    "Ross.Props.C68_set",
    "Ross.Props.C68_plot_partial",
    "Ross.Props.C68_plot_false",
    "Ross.Props.C68_list_false"
   ],
   "note": "Setting a parameter: proved. False of the code for the plot of a shaft element with random material, which then gives no elements, and for the list passed as is_random, which is extended."
  },
  {
   "property": "C69",
   "status": "partial",
   "theorems": [
    "Ross.Props.C69_args",
    "Ross.Props.C69_drawn",
    "Ross.Props.C69_rotors",
    "Ross.Props.C69_sizes",
    "Ross.Props.C69_none",
    "Ross.Props.C69_object_partial",
    "Ross.Props.C69_position_false",
    "Ross.Props.C69_lists_false"
   ],
   "note": "Rotors, sizes and degrees of freedom: proved. False of the code for node positions, which are those of the first sample, and for the lists of the caller, in which random elements are replaced by lists."
  },
  {
   "property": "C70",
   "status": "partial",
   "theorems": [
    "Ross.Props.C70_runs",
    "Ross.Props.C70_campbell",
    "Ross.Props.C70_unbalance_partial",
    "Ross.Props.C70_stored",
    "Ross.Props.C70_options_false",
    "Ross.Props.C70_nodes_false",
    "Ross.Props.C70_mixed_false",
    "Ross.Props.C70_forces_partial",
    "Ross.Props.C70_truncated_false"
   ],
   "note": "Proved for analyses of rotors with the same arguments, for forces of which there are as many as rotors, and for unbalances on one node. False of the code for the options when the unbalance is not random, for lists of samples for several nodes, and for fewer forces than rotors."
  },
  {
   "property": "C71",
   "status": "partial",
   "theorems": [
    "Ross.Props.C71_geometry",
    "Ross.Props.C71_list_false"
   ],
   "note": "False of the code for a list of materials, which raises an error."
  },
  {
   "property": "C72",
   "status": "proved",
   "theorems": [
    "Ross.Props.C72_percentile",
    "Ross.Props.C72_order",
    "Ross.Props.C72_interval",
    "Ross.Props.C72_above",
    "Ross.Props.C72_mean"
   ],
   "note": "The percentile is modelled as linear interpolation between sorted samples, numpy's default; the intervals are those of st_results."
  },
  {
   "property": "C73",
   "status": "partial",
   "theorems": [
    "Ross.Props.C73_response_partial",
    "Ross.Props.C73_swapped",
    "Ross.Props.C73_response_false"
   ],
   "note": "Proved when the matrices are symmetric; otherwise the code returns the response at inp to a force at out."
  },
  {
   "property": "C74",
   "status": "proved",
   "theorems": [
    "Ross.Props.C74_rotor",
    "Ross.Props.C74_grid",
    "Ross.Props.C74_around",
    "Ross.Props.C74_start"
   ],
   "note": "Proved for eccentricities smaller than the radius of the rotor."
  },
  {
   "property": "C75",
   "status": "partial",
   "theorems": [
    "Ross.Props.C75_polar",
    "Ross.Props.C75_cylindrical",
    "Ross.Props.C75_elliptical",
    "Ross.Props.C75_no_preload",
    "Ross.Props.C75_wear_partial",
    "Ross.Props.C75_wear_false",
    "Ross.Props.C75_no_wear"
   ],
   "note": "Wear is proved up to a quarter turn from the vertical; beyond, the code makes the stator narrower."
  },
  {
   "property": "C76",
   "status": "partial",
   "theorems": [
    "Ross.Props.C76_moved",
    "Ross.Props.C76_centre_partial",
    "Ross.Props.C76_quadrant_false",
    "Ross.Props.C76_back"
   ],
   "note": "Proved for positions to the right of and below the centre; elsewhere the attitude angle is that of the mirror image."
  },
  {
   "property": "C77",
   "status": "partial",
   "theorems": [
    "Ross.Props.C77_data",
    "Ross.Props.C77_type_partial",
    "Ross.Props.C77_type_false",
    "Ross.Props.C77_centre",
    "Ross.Props.C77_given",
    "Ross.Props.C77_short_eccentricity",
    "Ross.Props.C77_short_load",
    "Ross.Props.C77_ratio_partial",
    "Ross.Props.C77_ratio_false",
    "Ross.Props.C77_equilibrium",
    "Ross.Props.C77_kept"
   ],
   "note": "False of the code: the limit for long bearings is 4 where 8 is documented, and with both a load and an eccentricity the ratio of a short bearing is not eccentricity over clearance."
  },
  {
   "property": "C78",
   "status": "proved",
   "theorems": [
    "Ross.Props.C78_ratio",
    "Ross.Props.C78_inverse",
    "Ross.Props.C78_monotone",
    "Ross.Props.C78_numbers",
    "Ross.Props.C78_reynolds"
   ],
   "note": "The root finder is a parameter that returns the roots of the polynomial."
  },
  {
   "property": "C79",
   "status": "partial",
   "theorems": [
    "Ross.Props.C79_components",
    "Ross.Props.C79_balance_partial",
    "Ross.Props.C79_balance_false"
   ],
   "note": "Proved up to the ratio of rotor and stator radius; the load uses the radius of the stator, the force that of the rotor."
  },
  {
   "property": "C80",
   "status": "proved",
   "theorems": [
    "Ross.Props.C80_around",
    "Ross.Props.C80_along",
    "Ross.Props.C80_signs",
    "Ross.Props.C80_disturbed",
    "Ross.Props.C80_squeeze",
    "Ross.Props.C80_surface",
    "Ross.Props.C80_refused"
   ],
   "note": "Flows are solutions of the equations of viscous flow between the two radii, given in the specification."
  },
  {
   "property": "C81",
   "status": "partial",
   "theorems": [
    "Ross.Props.C81_exists",
    "Ross.Props.C81_pressure_partial",
    "Ross.Props.C81_seam_false"
   ],
   "note": "Proved for all points but those of the first column, where the finite differences use the coefficients of the last column, which is the first again."
  },
  {
   "property": "C82",
   "status": "partial",
   "theorems": [
    "Ross.Props.C82_short",
    "Ross.Props.C82_long",
    "Ross.Props.C82_refused",
    "Ross.Props.C82_gap",
    "Ross.Props.C82_type_false",
    "Ross.Props.C82_shape_false"
   ],
   "note": "False of the code for short bearings that are to be taken as long and for short or long bearings of other shapes."
  },
  {
   "property": "C83",
   "status": "partial",
   "theorems": [
    "Ross.Props.C83_short",
    "Ross.Props.C83_long_partial",
    "Ross.Props.C83_long_false",
    "Ross.Props.C83_numerical",
    "Ross.Props.C83_type_false"
   ],
   "note": "False of the code for long bearings into which the fluid comes under pressure, and for short bearings that are to be taken as long."
  },
  {
   "property": "C84",
   "status": "partial",
   "theorems": [
    "Ross.Props.C84_stiffness_partial",
    "Ross.Props.C84_damping_partial",
    "Ross.Props.C84_equilibrium",
    "Ross.Props.C84_load_false"
   ],
   "note": "Exact in equilibrium; the load of a constructed bearing is larger than its film force by the ratio of the radii of stator and rotor, and so are its coefficients."
  },
  {
   "property": "C85",
   "status": "proved",
   "theorems": [
    "Ross.Props.C85_samples",
    "Ross.Props.C85_least",
    "Ross.Props.C85_linear",
    "Ross.Props.C85_coefficients",
    "Ross.Props.C85_succeeds",
    "Ross.Props.C85_restored"
   ],
   "note": "Solver and rule of integration are parameters without assumptions."
  },
  {
   "property": "C86",
   "status": "proved",
   "theorems": [
    "Ross.Props.C86_speeds",
    "Ross.Props.C86_modes",
    "Ross.Props.C86_near",
    "Ross.Props.C86_linear",
    "Ross.Props.C86_range",
    "Ross.Props.C86_at_most"
   ],
   "note": "Of newton it is assumed only that its last step is one of the secant method and within its tolerance (NewtonOk)."
  },
  {
   "property": "C87",
   "status": "proved",
   "theorems": [
    "Ross.Props.C87_rows",
    "Ross.Props.C87_damped",
    "Ross.Props.C87_undamped",
    "Ross.Props.C87_modal",
    "Ross.Props.C87_independent",
    "Ross.Props.C87_few"
   ],
   "note": "argsort is assumed to sort (ArgsortOk)."
  },
  {
   "property": "C88",
   "status": "partial",
   "theorems": [
    "Ross.Props.C88_springs",
    "Ross.Props.C88_shape",
    "Ross.Props.C88_default",
    "Ross.Props.C88_map",
    "Ross.Props.C88_points",
    "Ross.Props.C88_frequencies",
    "Ross.Props.C88_fits",
    "Ross.Props.C88_support",
    "Ross.Props.C88_num_modes",
    "Ross.Props.C88_support_false"
   ],
   "note": "False of the code for rotors with supports, which have no map; and for num_modes not a multiple of four."
  },
  {
   "property": "C89",
   "status": "partial",
   "theorems": [
    "Ross.Props.C89_shape",
    "Ross.Props.C89_log_dec",
    "Ross.Props.C89_default_false",
    "Ross.Props.C89_support",
    "Ross.Props.C89_node"
   ],
   "note": "False of the code without a range, or without a rated speed: the call never succeeds. Rotors with supports cannot be analysed."
  },
  {
   "property": "C90",
   "status": "proved",
   "theorems": [
    "Ross.Props.C90_circular",
    "Ross.Props.C90_lobe",
    "Ross.Props.C90_elliptical",
    "Ross.Props.C90_thickness",
    "Ross.Props.C90_thinnest",
    "Ross.Props.C90_refused"
   ],
   "note": ""
  },
  {
   "property": "C91",
   "status": "proved",
   "theorems": [
    "Ross.Props.C91_viscosity"
   ],
   "note": "curve_fit is assumed to pass through the two points (FitOk)."
  },
  {
   "property": "C92",
   "status": "proved",
   "theorems": [
    "Ross.Props.C92_rate",
    "Ross.Props.C92_balance",
    "Ross.Props.C92_nonneg",
    "Ross.Props.C92_squeeze",
    "Ross.Props.C92_converging",
    "Ross.Props.C92_symmetric",
    "Ross.Props.C92_rest",
    "Ross.Props.C92_cells"
   ],
   "note": "np.linalg.solve is assumed to solve systems that have a solution (SolverOk)."
  },
  {
   "property": "C93",
   "status": "partial",
   "theorems": [
    "Ross.Props.C93_balance",
    "Ross.Props.C93_unique",
    "Ross.Props.C93_heated",
    "Ross.Props.C93_viscosity",
    "Ross.Props.C93_frame",
    "Ross.Props.C93_weight",
    "Ross.Props.C93_turbulence",
    "Ross.Props.C93_reynolds_false"
   ],
   "note": "False of the code in one point: what is used as Reynolds number is that number over the length of the bearing."
  },
  {
   "property": "C94",
   "status": "partial",
   "theorems": [
    "Ross.Props.C94_mixing_partial",
    "Ross.Props.C94_mixing_false",
    "Ross.Props.C94_between",
    "Ross.Props.C94_number_false",
    "Ross.Props.C94_list"
   ],
   "note": "False of the code for three pads or more, and for a number as groove factor."
  },
  {
   "property": "C95",
   "status": "partial",
   "theorems": [
    "Ross.Props.C95_forces",
    "Ross.Props.C95_seven",
    "Ross.Props.C95_cold_false",
    "Ross.Props.C95_angles",
    "Ross.Props.C95_rest",
    "Ross.Props.C95_ends",
    "Ross.Props.C95_pushes",
    "Ross.Props.C95_resultant_partial",
    "Ross.Props.C95_resultant_false",
    "Ross.Props.C95_groove_false"
   ],
   "note": "False of the code: cells at the edges count half, the groove between pads counts although it has no film, and there are no forces for seven pads or a cold supply. That the calculation ends is proved where the viscosity is constant and only fresh oil enters."
  },
  {
   "property": "C96",
   "status": "partial",
   "theorems": [
    "Ross.Props.C96_score",
    "Ross.Props.C96_equilibrium",
    "Ross.Props.C96_rows",
    "Ross.Props.C96_rows_false",
    "Ross.Props.C96_lund_false"
   ],
   "note": "The minimisation is assumed not to be worse than its start (Descends). False of the code: the coefficients at a speed may depend on the speeds before, and those of the Lund method are for the point evaluated last, not for the equilibrium."
  },
  {
   "property": "C97",
   "status": "partial",
   "theorems": [
    "Ross.Props.C97_reported",
    "Ross.Props.C97_steps",
    "Ross.Props.C97_linear_partial",
    "Ross.Props.C97_scale_false"
   ],
   "note": "False of the code: the coefficients are multiplied by a factor that is not 1."
  },
  {
   "property": "C98",
   "status": "partial",
   "theorems": [
    "Ross.Props.C98_refused",
    "Ross.Props.C98_speeds_false",
    "Ross.Props.C98_places_false"
   ],
   "note": "False of the code: the coefficients are passed on in the wrong places, only one speed is accepted, and the optional oil flow is needed."
  },
  {
   "property": "C99",
   "status": "partial",
   "theorems": [
    "Ross.Props.C99_ends",
    "Ross.Props.C99_quiet",
    "Ross.Props.C99_displaced",
    "Ross.Props.C99_moving",
    "Ross.Props.C99_pressure_partial",
    "Ross.Props.C99_coefficients_partial",
    "Ross.Props.C99_default_false",
    "Ross.Props.C99_injection_false",
    "Ross.Props.C99_run",
    "Ross.Props.C99_run_partial",
    "Ross.Props.C99_starved_displaced",
    "Ross.Props.C99_starved_moving"
   ],
   "note": "Derivatives of the pressure and the coefficients are proved for films under pressure everywhere, at constant viscosity, and for the whole run when the viscosity has settled; where part of the film is without pressure or only filled in part, that mass is conserved to first order where there is pressure, with the filling held, and that nothing changes elsewhere. False of the code for the default injection pressure, None, and for one other than 0."
  },
  {
   "property": "C100",
   "status": "partial",
   "theorems": [
    "Ross.Props.C100_full",
    "Ross.Props.C100_balance",
    "Ross.Props.C100_fed",
    "Ross.Props.C100_flooded",
    "Ross.Props.C100_fill_false",
    "Ross.Props.C100_entry_false"
   ],
   "note": "That the sweeps end is proved where every full cell is given more than is taken from it (C100_fed). False of the code: a cell can be filled to more than the whole, and injected oil is not counted for an entry cell without pressure."
  },
  {
   "property": "C101",
   "status": "partial",
   "theorems": [
    "Ross.Props.C101_shares",
    "Ross.Props.C101_heat",
    "Ross.Props.C101_between",
    "Ross.Props.C101_groove",
    "Ross.Props.C101_flow_partial",
    "Ross.Props.C101_flow_false",
    "Ross.Props.C101_film",
    "Ross.Props.C101_force",
    "Ross.Props.C101_default_false"
   ],
   "note": "False of the code for the default injection pressure, None: a starved bearing then raises. The oil that passes a section is proved for sections filled alike across the bearing; otherwise only the filling at one edge counts (C101_flow_false). That the loops end is not proved in general."
  },
  {
   "property": "C102",
   "status": "partial",
   "theorems": [
    "Ross.Props.C102_refl",
    "Ross.Props.C102_hash",
    "Ross.Props.C102_bearing",
    "Ross.Props.C102_bearing6",
    "Ross.Props.C102_point_mass",
    "Ross.Props.C102_shaft_partial",
    "Ross.Props.C102_class_false",
    "Ross.Props.C102_stiffness_false",
    "Ross.Props.C102_disk_partial",
    "Ross.Props.C102_disk_node",
    "Ross.Props.C102_disk_false",
    "Ross.Props.C102_rolling_false",
    "Ross.Props.C102_cylindrical_hash_false"
   ],
   "note": "Proved of bearings without repeated speeds and of point masses. False of the code: shaft elements of different classes are ==, materials and disks are compared with a tolerance, so that == of disks is neither symmetric nor transitive; comparing ball, roller or fluid-film bearings raises; cylindrical bearings with different tags are == with different hashes."
  },
  {
   "property": "C103",
   "status": "partial",
   "theorems": [
    "Ross.Props.C103_frequencies",
    "Ross.Props.C103_tones_partial",
    "Ross.Props.C103_bound",
    "Ross.Props.C103_energy",
    "Ross.Props.C103_radial",
    "Ross.Props.C103_axial",
    "Ross.Props.C103_curves",
    "Ross.Props.C103_mean_false",
    "Ross.Props.C103_highest_false",
    "Ross.Props.C103_support_false"
   ],
   "note": "fft is its documented sum. False of the code: the mean value is shown doubled, the highest tone that an odd number of samples resolves is not shown, and probes at the second and later supports do not see their motion."
  },
  {
   "property": "C104",
   "status": "partial",
   "theorems": [
    "Ross.Props.C104_copy_partial",
    "Ross.Props.C104_matrices",
    "Ross.Props.C104_mass_false",
    "Ross.Props.C104_six_false"
   ],
   "note": "Proved of rotors whose bearings were given no mass. False of the code: the masses of bearings are lost, and rotors with six degrees of freedom per node and a bearing cannot be copied."
  },
  {
   "property": "C105",
   "status": "partial",
   "theorems": [
    "Ross.Props.C105_load_partial",
    "Ross.Props.C105_other",
    "Ross.Props.C105_campbell_partial",
    "Ross.Props.C105_complex_false",
    "Ross.Props.C105_dict_false",
    "Ross.Props.C105_again_false",
    "Ross.Props.C105_campbell_false",
    "Ross.Props.C105_second_false",
    "Ross.Props.C105_rotor_file",
    "Ross.Props.C105_empty_false"
   ],
   "note": "Proved of results with numbers, real arrays and complex arrays with long texts, in a file of their own. False of the code: complex arrays whose texts are all short are loaded as texts; empty complex arrays are loaded as real ones; dictionaries are loaded as arrays without dimensions, after which saving again fails and empties the file; the function of a Campbell diagram is lost; results saved after others in the same file cannot be loaded. UCSResults, SummaryResults, Orbit and Shape, and the shapes of arrays, are not modelled."
  },
  {
   "property": "C106",
   "status": "partial",
   "theorems": [
    "Ross.Props.C106_accepts",
    "Ross.Props.C106_shape_partial",
    "Ross.Props.C106_line_partial",
    "Ross.Props.C106_speed_false",
    "Ross.Props.C106_marker_scale",
    "Ross.Props.C106_marker_partial",
    "Ross.Props.C106_marker_false",
    "Ross.Props.C106_velocity_false",
    "Ross.Props.C106_none_false",
    "Ross.Props.C106_moment",
    "Ross.Props.C106_moment_error"
   ],
   "note": "Proved when no earlier computed speed is within the tolerance, and for markers in metres. False of the code: of speeds that differ by less than 1e-5 of their value the first one is shown; markers are converted to the units twice; shapes of velocities and accelerations with an unbalance, and shapes of general forces, cannot be drawn in three dimensions. Colors, labels and layout are not modelled."
  },
  {
   "property": "C107",
   "status": "partial",
   "theorems": [
    "Ross.Props.C107_swapped",
    "Ross.Props.C107_response_partial",
    "Ross.Props.C107_response_false",
    "Ross.Props.C107_gyro_false",
    "Ross.Props.C107_phase_radian",
    "Ross.Props.C107_phase_degree",
    "Ross.Props.C107_phase_false",
    "Ross.Props.C107_units",
    "Ross.Props.C107_label_partial",
    "Ross.Props.C107_label_false"
   ],
   "note": "Proved for symmetric dynamic stiffness, for phases in radians and degrees and for names of shaft nodes. False of the code: the plots show the motion at the input under a force at the output, which differs at every speed as soon as there is a gyroscopic matrix; phases in other units are increased by 360; degrees of freedom of supports are named after other nodes and directions. Negative indices, colors and layout are not modelled."
  },
  {
   "property": "C108",
   "status": "partial",
   "theorems": [
    "Ross.Props.C108_lateral",
    "Ross.Props.C108_axial",
    "Ross.Props.C108_axial_partial",
    "Ross.Props.C108_axial_false",
    "Ross.Props.C108_critical",
    "Ross.Props.C108_damping_false",
    "Ross.Props.C108_lines",
    "Ross.Props.C108_accepts",
    "Ross.Props.C108_errors",
    "Ross.Props.C108_once",
    "Ross.Props.C108_rotor",
    "Ross.Props.C108_extra_partial",
    "Ross.Props.C108_extra_false",
    "Ross.Props.C108_click_partial",
    "Ross.Props.C108_natural_false"
   ],
   "note": "Proved for lateral modes with any ranges, for axial and torsional modes within the ranges, for critical speeds within the frequency range and for clicks in diagrams of damped frequencies. False of the code: axial and torsional modes are drawn whatever the ranges; critical speeds of modes outside the damping range are marked; without critical speeds the further modal analyses run at other speeds; in diagrams of natural frequencies types and clicks may belong to another mode. Colours, titles and the dash application are not modelled."
  },
  {
   "property": "C109",
   "status": "partial",
   "theorems": [
    "Ross.Props.C109_shaft",
    "Ross.Props.C109_damping_false",
    "Ross.Props.C109_simple_false",
    "Ross.Props.C109_kind_false",
    "Ross.Props.C109_flags_false",
    "Ross.Props.C109_bearing",
    "Ross.Props.C109_toml",
    "Ross.Props.C109_disk",
    "Ross.Props.C109_disk_accepts",
    "Ross.Props.C109_disk_short"
   ],
   "note": "Proved for every \"Model\" sheet, every table of a bearing and every table of disks that is accepted. False of the code: no \"Simple\" sheet makes a shaft (its rows must hold a number as material, and numbers are not names of materials); other kinds of sheets give no shafts silently; alpha and beta are never read; text in flag columns, also \"False\", counts as true. NaN and None among numbers are not modelled."
  },
  {
   "property": "C110",
   "status": "partial",
   "theorems": [
    "Ross.Props.C110_positions",
    "Ross.Props.C110_on_shaft",
    "Ross.Props.C110_summary_partial",
    "Ross.Props.C110_again_false",
    "Ross.Props.C110_disks_false"
   ],
   "note": "Proved: the positions in the table of every constructed rotor, and the first summary of every rotor with a disk whose static analysis succeeds. False of the code: the second summary of a rotor cannot be drawn (merging renames the column of positions), and a rotor without disks has no summary (KeyError). Roundings in the tables are not modelled."
  },
  {
   "property": "C111",
   "status": "partial",
   "theorems": [
    "Ross.Props.C111_deformation",
    "Ross.Props.C111_shear_partial",
    "Ross.Props.C111_bending_partial",
    "Ross.Props.C111_reactions",
    "Ross.Props.C111_reactions_balance",
    "Ross.Props.C111_disks_false",
    "Ross.Props.C111_same_node_false"
   ],
   "note": "Proved for all rotors: the line of the deformation and the arrows of the reactions, which balance the weights; lines of shear force and bending moment with the hypotheses of C52. False of the code: every disk is drawn once for every node with bearings, so that what is shown is not in equilibrium, and of several disks on one node only the last is shown. The rotor is on ground in the theorems on equilibrium; the spline drawn between the points of the moment is not modelled."
  },
  {
   "property": "C112",
   "status": "partial",
   "theorems": [
    "Ross.Props.C112_warns",
    "Ross.Props.C112_warns_campbell",
    "Ross.Props.C112_check",
    "Ross.Props.C112_silent",
    "Ross.Props.C112_silent_campbell",
    "Ross.Props.C112_others_false"
   ],
   "note": "Proved for run_freq_response and run_campbell: the warning is given exactly if a speed is outside of a table, and without it the results are the same for every rotor whose bearings differ only outside of their tables. False of the code for the other analyses: forced response (and with it the unbalance response) and modal analysis never warn. That the check fails for an empty array of speeds is modelled."
  },
  {
   "property": "C113",
   "status": "partial",
   "theorems": [
    "Ross.Props.C113_ignored",
    "Ross.Props.C113_equal_partial",
    "Ross.Props.C113_frequency_false"
   ],
   "note": "Proved for a frequency equal to the speed (and, as C24, for no frequency). False of the code for every other frequency: if the matrices of the rotor do not depend on frequency, the argument is ignored, and the result is not the inverse of the dynamic stiffness at any frequency other than plus or minus the speed."
  },
  {
   "property": "C114",
   "status": "proved",
   "theorems": [
    "Ross.Props.C114_response",
    "Ross.Props.C114_modes"
   ],
   "note": "For every rotor; the response where the dynamic stiffness is not singular. Writing the file is not modelled."
  },
  {
   "property": "C115",
   "status": "partial",
   "theorems": [
    "Ross.Props.C115_samples",
    "Ross.Props.C115_all",
    "Ross.Props.C115_short",
    "Ross.Props.C115_omega_false"
   ],
   "note": "Proved for every parameter but the speed, also if is_random does not name all of the parameters with samples. False of the code for the speed, which the documentation lists: it raises KeyError if it is named first."
  },
  {
   "property": "C116",
   "status": "partial",
   "theorems": [
    "Ross.Props.C116_curves",
    "Ross.Props.C116_band",
    "Ross.Props.C116_nat_freq",
    "Ross.Props.C116_log_dec",
    "Ross.Props.C116_bode",
    "Ross.Props.C116_phase_false",
    "Ross.Props.C116_polar_partial",
    "Ross.Props.C116_polar_false",
    "Ross.Props.C116_probes_partial",
    "Ross.Props.C116_orbit_partial",
    "Ross.Props.C116_3d_partial",
    "Ross.Props.C116_3d_false",
    "Ross.Props.C116_forced_partial",
    "Ross.Props.C116_forced_colors"
   ],
   "note": "Proved of all figures, with the limits on the number of colors. False of the code in three places: phases are averaged as numbers, so that the mean of responses opposite to the force may be drawn along it; the polar diagram draws degrees as radians; the lower limit of a band in three dimensions is drawn at the position in metres whatever the unit. Probes are read as in C63 and C65, with their exceptions."
  },
  {
   "property": "C117",
   "status": "partial",
   "theorems": [
    "Ross.Props.C117_load_partial",
    "Ross.Props.C117_same",
    "Ross.Props.C117_complex_false",
    "Ross.Props.C117_other",
    "Ross.Props.C117_second_false"
   ],
   "note": "Proved for real values and for complex arrays the longest text of which has 49 characters. False of the code for all other complex arrays, which come back as texts, and for results that are not the first in their file."
  },
  {
   "property": "C118",
   "status": "partial",
   "theorems": [
    "Ross.Props.C118_labels",
    "Ross.Props.C118_names",
    "Ross.Props.C118_table_partial",
    "Ross.Props.C118_bode_partial",
    "Ross.Props.C118_polar_partial",
    "Ross.Props.C118_polar_false",
    "Ross.Props.C118_tags_false",
    "Ross.Props.C118_frequency_false",
    "Ross.Props.C118_colors_false",
    "Ross.Props.C118_time_table",
    "Ross.Props.C118_time_partial",
    "Ross.Props.C118_units_false",
    "Ross.Props.C118_no_instants",
    "Ross.Props.C118_orbit",
    "Ross.Props.C118_orbits"
   ],
   "note": "Proved for probes with different names, up to ten of them in a figure, and time figures in meters. False of the code for probes that share a tag, for the tag \"frequency\", for more than ten probes, for phases in other units than radians and degrees in polar figures, and for time figures in other units than meters, which are converted twice."
  },
  {
   "property": "C119",
   "status": "partial",
   "theorems": [
    "Ross.Props.C119_2d",
    "Ross.Props.C119_color",
    "Ross.Props.C119_3d",
    "Ross.Props.C119_orbits",
    "Ross.Props.C119_instant_false",
    "Ross.Props.C119_mode",
    "Ross.Props.C119_refused",
    "Ross.Props.C119_units_false",
    "Ross.Props.C119_title_false",
    "Ross.Props.C119_title_partial",
    "Ross.Props.C119_critical_partial",
    "Ross.Props.C119_map",
    "Ross.Props.C119_critical_false"
   ],
   "note": "Figures of shapes are proved for all shapes. False of the code: plot_mode_2d labels the axis with the unit of length and draws metres; the orientations x and y do not show one instant; a mode on lines is called Forward in the title and has the color of Backward; of modes with equal frequencies the first is shown for a critical speed, forward or not."
  },
  {
   "property": "C120",
   "status": "partial",
   "theorems": [
    "Ross.Props.C120_map",
    "Ross.Props.C120_map_accepts",
    "Ross.Props.C120_level1",
    "Ross.Props.C120_coefficients",
    "Ross.Props.C120_kinds",
    "Ross.Props.C120_constant_false"
   ],
   "note": "Proved for maps, stability analyses, and bearings with a table of frequencies. False of the code for bearings with constant coefficients, whose figure cannot be drawn (min of None)."
  },
  {
   "property": "C121",
   "status": "partial",
   "theorems": [
    "Ross.Props.C121_center",
    "Ross.Props.C121_labels",
    "Ross.Props.C121_labels_zero",
    "Ross.Props.C121_shaft",
    "Ross.Props.C121_ends",
    "Ross.Props.C121_warning",
    "Ross.Props.C121_disks",
    "Ross.Props.C121_masses",
    "Ross.Props.C121_mixed_false",
    "Ross.Props.C121_bearings",
    "Ross.Props.C121_point_masses",
    "Ross.Props.C121_axial_mass_false",
    "Ross.Props.C121_accepts",
    "Ross.Props.C121_massless"
   ],
   "note": "Negative increments are not modelled; heights of bearings and point masses are in C122. False of the code where some but not all disks are scaled by mass (AttributeError), and for the text of point masses with six degrees of freedom, which shows the mass in y as the one in z."
  },
  {
   "property": "C122",
   "status": "proved",
   "theorems": [
    "Ross.Props.C122_icon",
    "Ross.Props.C122_stacked",
    "Ross.Props.C122_apart"
   ],
   "note": ""
  },
  {
   "property": "C123",
   "status": "partial",
   "theorems": [
    "Ross.Props.C123_cells",
    "Ross.Props.C123_labels",
    "Ross.Props.C123_listed",
    "Ross.Props.C123_sum_partial",
    "Ross.Props.C123_accepts",
    "Ross.Props.C123_zero",
    "Ross.Props.C123_linked_false",
    "Ross.Props.C123_undamped_false"
   ],
   "note": "False of the code for linked bearings: zip of local and global indices stops before the link node, so what the bearing has there is not listed. A matrix to which no element contributes (damping of an undamped rotor) raises ValueError: C123_zero, C123_undamped_false. frequency=None is not modelled."
  },
  {
   "property": "C124",
   "status": "partial",
   "theorems": [
    "Ross.Props.C124_columns",
    "Ross.Props.C124_last",
    "Ross.Props.C124_forced",
    "Ross.Props.C124_time_partial",
    "Ross.Props.C124_tags_false"
   ],
   "note": "False of the code when two curves have the same name, for instance two probes with the same tag: only the last one is kept. Proved when the names differ, for figures of forced responses (magnitude and phase) and of time responses in meters."
  },
  {
   "property": "C125",
   "status": "proved",
   "theorems": [
    "Ross.Props.C125_numbers",
    "Ross.Props.C125_end",
    "Ross.Props.C125_index",
    "Ross.Props.C125_shared"
   ],
   "note": "For elements with four degrees of freedom per node and disks on shaft nodes. With six, the rest of the constructor, which is not modelled, raises an error."
  },
  {
   "property": "C126",
   "status": "partial",
   "theorems": [
    "Ross.Props.C126_alone_partial",
    "Ross.Props.C126_together_false",
    "Ross.Props.exCoShafts_says"
   ],
   "note": "Holds for a disk or bearing alone on its node. False for two of them on the last node of a shaft: each takes the missing number of the other, and both are listed without a shaft."
  },
  {
   "property": "C127",
   "status": "partial",
   "theorems": [
    "Ross.Props.C127_refused",
    "Ross.Props.C127_axial",
    "Ross.Props.C127_no_column",
    "Ross.Props.C127_shape",
    "Ross.Props.C127_round_partial",
    "Ross.Props.C127_round_false",
    "Ross.Props.C127_surface_partial",
    "Ross.Props.C127_surface_false",
    "Ross.Props.C127_ring",
    "Ross.Props.C127_ring_film",
    "Ross.Props.C127_ring_partial",
    "Ross.Props.C127_ring_false"
   ],
   "note": "False of the code in three places. With both pressures calculated, the figure around the bearing has only the one by finite differences. With only the pressure by the formulas, the surface is missing and no error is raised. On polar axes the columns are drawn at angles that are too large, by up to half a step of the grid."
  },
  {
   "property": "C128",
   "status": "proved",
   "theorems": [
    "Ross.Props.C128_refused",
    "Ross.Props.C128_true",
    "Ross.Props.C128_similar",
    "Ross.Props.C128_inside",
    "Ross.Props.C128_cylindrical"
   ],
   "note": ""
  },
  {
   "property": "C129",
   "status": "partial",
   "theorems": [
    "Ross.Props.C129_spans_partial",
    "Ross.Props.C129_first_partial",
    "Ross.Props.C129_free_partial",
    "Ross.Props.C129_carried_partial",
    "Ross.Props.C129_nodes_partial",
    "Ross.Props.C129_lengths_false",
    "Ross.Props.C129_first_false",
    "Ross.Props.C129_nodes_false"
   ],
   "note": "Proved when the elements at both sides of a link have equal lengths on both shafts. False of the code otherwise: the two ends are moved by different amounts. A rotor of a single element of length L begins at L. With three shafts the list of the positions of the nodes has a wrong value, as a node number is used as a row."
  },
  {
   "property": "C130",
   "status": "partial",
   "theorems": [
    "Ross.Props.C130_elements_partial",
    "Ross.Props.C130_centre_partial",
    "Ross.Props.C130_moved_false",
    "Ross.Props.C130_centre_false",
    "Ross.Props.C130_column_partial",
    "Ross.Props.C130_column_false"
   ],
   "note": "Proved when bearings link only to the first nodes of shafts. False of the code otherwise: a link further along moves the elements before it, but the centres of mass stored in them stay, and the centre of mass of the rotor is calculated with those; the column of the table stays too."
  },
  {
   "property": "C131",
   "status": "partial",
   "theorems": [
    "Ross.Props.C131_count",
    "Ross.Props.C131_three_partial",
    "Ross.Props.C131_four_false",
    "Ross.Props.C131_diameters_partial",
    "Ross.Props.C131_length_partial",
    "Ross.Props.C131_length_false"
   ],
   "note": "The number of positions is proved for all rotors that are constructed, and that up to three shafts are accepted. False of the code: four shafts of one element raise IndexError; the length is the end of the shaft that is last in the list, even when another one is longer."
  }
 ]
}