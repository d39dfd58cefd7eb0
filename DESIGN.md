# Formal model of petrobras/ross in Lean 4

## Layout

* `lean/Verif/Model/*.lean` – the model: one Lean definition per function (or per
  block of a function) of the code, each with a comment citing the file and lines.
* `lean/Verif/Spec/*.lean` – small, separate specifications: what the English
  property says, written without using model definitions.
* `lean/Verif/Lemmas/*.lean` – helper lemmas used by the proofs.
* `lean/Verif/Props/*.lean` – the property theorems (one file per group), each
  followed by an `example` showing that a concrete, non-trivial case meets its
  hypotheses.
* `properties.jsonl`, `MANIFEST.json`, `seeded/LOG.jsonl` – property list, claim
  status, log of wrong-program experiments.

## Trusted base

* Lean 4.33.0's kernel, Mathlib's definitions (ℝ, ℂ, `Matrix`, interval integral…).
* Axioms: only `propext`, `Classical.choice`, `Quot.sound` (checked with
  `#print axioms`; see the last section).
* The hand translation from Python to Lean in `Model/`. Nothing checks it
  mechanically; every definition cites the lines it models.
* Floating point is **not** modelled: Python floats are exact real (or complex)
  numbers. `numpy` array operations are modelled by their mathematical meaning, with
  shape errors, `None` arithmetic and failed lookups modelled as explicit errors.
* Third-party numerics are modelled as parameters with the mathematical contract a
  caller relies on (e.g. `scipy.linalg.solve` = multiply by the inverse,
  eigen-decomposition = a matrix `V` with `A V = V diag(λ)`), never as axioms.
* TOML files are modelled as association lists from key to table (insertion ordered,
  `None` fields dropped on dump), i.e. `toml.load (toml.dump d) = d` without `None`s.
* Of Plotly figures only the coordinates of the curves are modelled, for the figures named below.  Pandas frames used
  for display, logging and warnings are not modelled, but for the tables of C110 and the warning of C112.

## Plan per property

| id | modelled | how proved |
|----|----------|-----------|
| C01 | `Material.__init__` with optional constants, `Except` errors | case analysis + field arithmetic |
| C02 | library file as association list; the four operations | induction over histories, refinement to an abstract map |
| C03 | `from_geometry`, 4/6-dof disk matrices | integrals over the hollow cylinder (radial/axial integrals), matrix identities |
| C04 | geometric part of `ShaftElement.__init__` | integrals of polynomials in x |
| C05 C06 | `ShaftElement.M` entry by entry | each entry = interval integral of shape functions (spec written from beam theory); positive definiteness from the integral form |
| C07 C08 | `ShaftElement.K` | idem; null vectors by computation |
| C09 | `ShaftElement.G` | idem |
| C10 C11 | `ShaftElement6DoF.M/K/G/Kst` | entrywise; G disagreement proved as a negation with witness, plus `_partial` |
| C12 | `C()` | entrywise |
| C13 | `section` | induction over the number of elements, telescoping sums |
| C14 C15 | bearing constructor and matrices; spline fitting is a parameter | case analysis |
| C16 | point masses | case analysis |
| C17 | dof numbering in `Rotor.__init__` | arithmetic over all element lists |
| C18 C19 | scatter-add assembly loops | induction over the element list, sums over Finset |
| C20 C21 C22 | node position loop, tags, outside-shaft test, bearing location loop | induction over lists; termination by fuel-free measure |
| C23 C24 C25 C26 | `A`, `_lti`, `transfer_matrix`, responses | block matrix algebra over ℂ |
| C27 | `newmark` | Newton step algebra, induction over steps |
| C28 | `run_static` | equilibrium algebra from the rigid-body null vector |
| C29 | loop of `convergence` | negation with witness; `_partial` for cylindrical elements |
| C30 C31 | `save`/`load` | association-list lemmas; negations for the classes that fail |
| C32 | `check_units` | case analysis over names/values |
| C33 | `read_table_file` | list induction over rows and cells; the conversions value by value; negations for sheets that fail |
| C34 | `intersection` | linear algebra of segments |
| C35 | `Probe.__init__` | case analysis |
| C36 C37 | `_index`, `_clustering_points` | permutation/sortedness of lists |
| C38 | `CylindricalBearing.__init__`; the root finder is a parameter | intermediate value theorem, monotonicity, simple roots; derivatives of Ocvirk's film force |
| C39 | ball, roller, magnetic constructors with numpy broadcasting | real powers, positivity; derivatives of the magnet force |
| C40 C43 | `Integrator` | module algebra, induction |
| C41 C42 | fault force laws | real algebra/trigonometry |
| C53 C55 | common part of the faults: speed, unbalance, modal projection, integration | trigonometry; module algebra; induction over steps |
| C54 | crack compliance, breathing, force | matrix inverses in closed form, inequalities; negations for what fails |
| C44 C45 | dof removal, `from_section` | list/matrix lemmas |
| C46 | unbalance response of a 4-dof rotor | steady-state synchronous solution; negation for 6 dofs |
| C47 | passive rotors (damping and stiffness positive semidefinite) | energy forms, Lyapunov argument on eigenvectors |
| C48 C49 | modal solution, residues | eigenpairs of the state matrix; spectral projectors |
| C50 C51 | `integrate_system`, pseudo-modal reduction | Newmark theorems at rotor level; Galerkin projection |
| C56 C57 C58 C59 | `Orbit` | closed form of the ellipse (eigenvalues of a 2×2 matrix), trigonometry; negations for what fails |
| C60 C61 C62 | `Shape`, whirl of `ModalResults` | list lemmas, Hermite polynomials, C56-C57 at each node; negations for what fails |
| C63 C64 C65 C66 | probes, axes and bending moments of responses | numbering of C03, C56, Hermite polynomials; induction over the shaft elements; negations for what fails |
| C67 C68 C71 | random elements: constructors, iteration, setting, plotting of random parameters | the arguments of the i-th element, one by one; negations for what fails |
| C69 C70 C73 | random rotors and their analyses, with the analyses of one rotor as parameters | list lemmas over samples; C17 for degrees of freedom; negations for what fails |
| C72 | percentiles, confidence intervals, means | order of the sorted samples, floor arithmetic, counting |
| C74 C75 C76 | surfaces of rotor and stator of fluid-film bearings, moves of the rotor | polar equation of a circle; trigonometry; negations for what fails |
| C77 | `FluidFlow.__init__` with solvers as parameters | case distinction over what is given |
| C78 C79 | Sommerfeld numbers, load and force of short bearings | a strictly monotone load; the quartic by the intermediate value theorem |
| C80 | coefficients of the film equation | solutions of the equations of viscous flow between two radii; functions with derivative 0 |
| C81 | finite differences and their matrix, the solver a parameter | loops by induction; a maximum principle for uniqueness; existence from injectivity |
| C82 | analytical pressure | solutions of the equations of short and long bearings |
| C83 | film forces; the rule of integration a parameter | integrals by antiderivatives; sums over the grid |
| C84 | stiffness and damping of short bearings | derivatives along every direction; the equation of a moving film |
| C85 | samples of oscillations and fits | least squares by the normal equations; the loop of samples by induction on the times |
| C86 | `run_critical_speed`; `newton` a parameter | the last step of the secant method; filters of lists |
| C87 | `run_campbell`; `argsort` a parameter | induction over the speeds; permutations |
| C88 | `run_ucs` | constructor of rotors (C19) and crossings of curves (C34) for every stiffness |
| C89 | `run_level1` | the same, with a bearing more |
| C90 | the thickness of the film | trigonometry; Cauchy-Schwarz |
| C91 | the fit of the viscosity, the table of lubricants | monotonicity of powers |
| C92 | coefficients and matrix of a pad; `np.linalg.solve` a parameter | maximum principle for the five-point scheme |
| C93 | the heat equation of a pad, turbulence | the same; dissipation as an integral over the film |
| C94 | the mixing of the oil | the order of the pads |
| C95 | the loops of `_forces`, with fuel, and the integration | invariants of loops; sums of the trapezoidal rule |
| C96 | `run`, `_score`, the loop of `__init__`; `minimize` a parameter | contract of the minimisation; induction over the speeds |
| C97 | `_pertubation_method`, `sommerfeld` | algebra of central differences |
| C98 | `__init__` and the call of the constructor of bearings | unfolding; negation for all arguments |
| C99 | `_lund_method`: coefficients, right sides, Gauss-Seidel sweeps with fuel, integration | contraction of sweeps of a dominant matrix; derivatives of coefficients and of solutions of linear systems; maximum principle |
| C100 | `_starvation` of one pad: sweeps with fuel over pressures and fillings | invariant of the sweep; residual of the last sweep; contraction and maximum principle for a film that is given more than is taken; counterexamples on a pad of four cells |
| C101 | `_forces` for starved bearings: mixing, grooves, the loops around the sweeps | invariants of the nested loops; sums over pads |
| C102 | `__eq__` and `__hash__` of the elements and materials, over the attributes of an object as a table | induction over the attributes; what a comparison by values determines; pairs within the tolerance as counterexamples |
| C103 | `plot_dfft`, `_dfft`; the transform as its sum | orthogonality of the roots of unity; Parseval; positions of degrees of freedom |
| C104 | `Rotor.to_ross_only` on top of the constructors of bearings and rotors | constructing again from processed coefficients; transfer of the assembly to bearings that it cannot tell apart |
| C105 | `Results.save`, `Results.load` on a map from paths to files, with the texts of complex numbers as a parameter | induction over the entries of a table; `Dict` lemmas; the rotor by C31 |
| C106 | `plot_deflected_shape_2d`, `plot_deflected_shape_3d`, `plot_bending_moment`: the data that are drawn | first index with a property; C56, C60 to C62 for the shape, C66 for the moments |
| C107 | `FrequencyResponseResults.plot_magnitude`, `plot_phase`, `plot_polar_bode`: the data and the names of the curves | C24 for the transfer matrix; symmetry of an inverse; polar form |
| C108 | `CampbellResults.plot` and `_plot_with_mode_shape`: the traces of a figure, the further analyses and the mode of a click | curves are unique; filters compared with the kind of a mode; C34 for the crossings; counting by kind |
| C109 | `from_table` of shafts, disks and bearings and `table_to_toml` on the content of a sheet | C33 for the lists; the last material of a name by induction on the rows; constructors by C04 and C10 |
| C110 | positions in `df`, `Rotor.summary` with the frames it changes, content of the tables of `SummaryResults.plot` | invariant of the loop over bearings for any order of rows; reactions by tag against reactions by node |
| C111 | arrows and lines of the four figures of `StaticResults` | each arrow against position and reaction of its node, lines against C28 and C52; count of the arrows of a disk |
| C112 | `_check_frequency_array`, its calls, `M`, `K`, `C`, `G` of bearings with changed interpolants | loop invariant; congruence of the assembly at frequencies inside of the tables |
| C113 C114 | `transfer_matrix` with a frequency, `save_mat` | reduction to C24 and C23; two dynamic stiffnesses with the same inverse |
| C115 | `ST_BearingElement.from_fluid_flow` with the films of C77 and the coefficients of C85 | the arrays of the parameters have the samples as entries; rows and columns of the tables; C67 for the draw |
| C116 | the figures of `st_results.py`: coordinates of the curves, from C63, C65 and C72 | `mapM` as `Forall₂`; percentiles scale with the units; samples and points exchanged once, in `axis0` |
| C117 | `ST_Results.save`, `load` with the values of C105 | every entry is written and read; the first table of the file |
| C118 | tables of forced responses as dicts by the names of the probes, their figures, tables and figures of time responses | labels differ by their digits; induction over the probes; negations for shared tags, colors, units |
| C119 | the traces and titles of figures of shapes and of modes, the selection of a mode in `UCSResults` | each point of an element lies on the cubic through its nodes; negations for units, instants, colors, equal frequencies |
| C120 | the traces of the figures of critical speed maps, of stability analyses and of coefficients of bearings | crossings are invariant under change of units; with C88 and C34 |
| C121 | `plot_rotor` and the outlines of shaft elements and disks, the axial positions of bearings and point masses | positions of nodes with C12 and C110, sizes of disks by cases |
| C122 | the columns `y_pos` and `y_pos_sup` of the table of elements and the icons drawn at them | positions of nodes are injective; the constructor's own check shows that the lowest bearing is on the shaft; induction over the stack |
| C123 | `visualize_matrix`: the assembled matrix, the names of the dofs and the lists of contributions | the slot of a dof is injective, so the last element that writes a name writes the right one; the sum by the bilinear form of unit vectors; negation with a linked bearing |
| C124 | `get_data_from_figure` as a dictionary of dictionaries, composed with the figures of C118 | induction over the curves with the dictionary split at the curve; negation with two probes of the same tag |
| C125 | `CoAxialRotor.__init__`: numbering of the shafts, `ndof`, global indices | induction over the shafts with both counters; the slots of C17 |
| C126 | `CoAxialRotor.__init__`: the loop that finds the shaft of each element | an invariant of the loop over rows and pending elements |
| C127 | the figures of `fluid_flow_graphics.py` as lists of points, bars and a surface | the branches on what was calculated, indices of flattened arrays, the angles of C74; negations for all films |
| C128 | `plot_eccentricity` as four lists of points | the minima over the grid, the triangle inequality; C74 for cylindrical bearings |
| C129 | the columns `nodes_pos_l`, `nodes_pos_r` and the list `nodes_pos` of coaxial rotors | invariant of the loops: the elements of a shaft so far lie end to end, earlier shafts stay; witnesses where links join unequal elements |
| C130 | the attributes `axial_cg_pos` of the elements, the column of the table and `CG` of coaxial rotors | which rows a pass of the loop leaves alone; sums over elements and disks; a witness with a link at the end of a shaft |
| C131 | the lists `nodes_pos` and `nodes_o_d` and `L` of coaxial rotors | strictly increasing node numbers; the insertions as a fold; witnesses with four shafts and with a short shaft given last |
| C52 | diagrams of `run_static` | telescoping sums of nodal equilibrium |

## What is modelled and what is not

Modelled, function by function (`Model/`):

| file | code |
|------|------|
| `Material` | `materials.py`: constructor, library file operations |
| `Shaft`, `Section` | `shaft_element.py`: both classes' constructor, `M K C G Kst`, `section` |
| `Disk` | `disk_element.py`: constructor, `M K C G`, `from_geometry`, the rows of `from_table` |
| `PointMass`, `Probe` | `point_mass.py`, `probe.py`: constructor and matrices |
| `Bearing` | `bearing_seal_element.py`: coefficient objects, `BearingElement(6DoF)`, `SealElement` |
| `Elements`, `Rotor` | `Rotor.__init__` 135-593 up to the data frames the analyses read |
| `Assembly` | `Rotor.M K C G Ksdt A` 924-1162 |
| `CoAxial` | `CoAxialRotor.__init__` without axial positions (those are in `CoAxialPos`) |
| `Dynamics` | `_lti`, `run_modal`, `_index`, `_clustering_points`, `transfer_matrix`, `run_freq_response`, `run_forced_response`, `run_unbalance_response` |
| `Newmark`, `TimeResponse` | `utils.newmark`, `assemble_C_K_matrices`, `integrate_system`, pseudo-modal reduction |
| `Static`, `Utils` | `run_static`, `remove_dofs`, `convert_6dof_to_4dof` |
| `Convergence` | `Rotor.convergence` 803-922 |
| `Units` | `units.py`: dictionary, `check_units`; pint is modelled by dimension, scale and offset, and its error for other dimensions; lists of quantities are not modelled |
| `Intersection` | `utils.py` `intersection`, for curves without NaN; `np.linalg.solve` is exact and fails exactly for singular matrices |
| `Integrator` | `faults/integrate_solver.py` `rk4`, `rk45` (whole, except the progress messages); the attributes written by the right-hand side are a state threaded through the calls |
| `Fault` | the part that `faults/{rubbing,misalignment,crack}.py` have in common: time vector, speed, unbalance, modal matrices, equation of motion, `run` |
| `Rubbing` | `faults/rubbing.py` `_rub`, `run`; NaN is `none` |
| `Misalignment` | `faults/misalignment.py` flexible (three types) and rigid couplings |
| `Crack` | `faults/crack.py` table look-up, stiffnesses, Mayes and Gasch, force, `run` (`pinv` of a regular matrix = inverse) |
| `CrackTable` | the columns of `tools/data/PAPADOPOULOS.csv` that the crack uses, whole |
| `Cylindrical` | `CylindricalBearing.__init__` |
| `RollingBearing` | `BallBearingElement`, `RollerBearingElement`, `MagneticBearingElement` constructors |
| `PersistFilm` | `save`/`load` of magnetic, cylindrical and fluid-film bearings |
| `Persist` | `save`/`load` of elements and rotors, with the signatures and attributes of the classes; the `toml` package writes and reads back every value except `None`, which it drops (numpy scalars, which it writes as text, are not modelled) |
| `Tables` | `utils.read_table_file`, whole, on the cells of the sheet as pandas gives them |
| `Orbit` | `results.py` `Orbit`, whole, without its figures |
| `Shape` | `results.py` `Shape` and the shapes and whirl of `ModalResults`, without figures; the arrays of the line are functions of the index |
| `Readout` | `results.py` `data_magnitude`, `data_phase`, `_calculate_major_axis_per_node`, `_calculate_bending_moment`, `data_time_response`, the curve of `plot_2d`; without units, labels and the deprecated tuples |
| `Stochastic` | `st_shaft_element.py`, `st_disk_element.py`, `st_materials.py`, `st_point_mass.py`, `st_bearing_seal_element.py`: constructors, `__iter__`, `__getitem__`, `__setitem__`, `random_var`, `from_geometry`, and which parameters `plot_random_var` changes; without figures, units and the six-degree variants |
| `StRotor` | `st_rotor_assembly.py` `ST_Rotor`: construction, iteration, `_get_rotor_args`, `_random_var`, the loops of the analyses; percentiles, confidence intervals and means of `st_results.py`; the analyses of one rotor are parameters; an exception in a later sample is taken to come before the first analysis |
| `FluidGeometry` | `fluid_flow_geometry.py`, without `move_rotor_center` and `move_rotor_center_abs`; root finders are parameters |
| `FluidFlow` | `fluid_flow.py` `FluidFlow`: geometry, analytical and numerical pressure, coefficients and matrix of the finite differences; the sparse solver is a parameter; without figures |
| `FluidForces` | `fluid_flow_coefficients.py`, the moves of `fluid_flow_geometry.py`, and `FluidFlow.__init__`; Simpson's rule and the minimiser are parameters |
| `FromSection` | `Rotor.from_section` 3337-3550 (`nel_r` a natural number) |
| `Runs` | `run_critical_speed` 701-801, `run_campbell` 2408-2487, `run_ucs` 2489-2636, `run_level1` 2638-2711, for four degrees of freedom per node |
| `Thd` | `fluid_flow/cylindrical.py` `THDCylindrical` and `lubricants.py`: construction, film, pressure, temperature and forces of flooded bearings, equilibrium, coefficients by perturbation; the force of starved bearings is a parameter, given by `ThdStarved`; loops have fuel, division by 0 of arrays (NaN) is not modelled |
| `ThdLund` | `fluid_flow/cylindrical.py` `_lund_method`; the sweeps have fuel; `Theta_vol` and the frequency of the whirl (the speed) are as in the code |
| `ThdStarved` | `fluid_flow/cylindrical.py` `_forces` with `operating_type = "starvation"`, and `_starvation`; loops have fuel; as in the code, flows use the filling of the first row of cells |
| `Equality` | `__eq__`, `__hash__` of shaft elements, disks, bearings, seals, point masses, materials; elements not yet put into a rotor (`dof_global_index` is `None`); magnetic bearings are modelled, nothing is proved of them |
| `Spectrum` | `faults/abs_fault.py` `plot_dfft`, `_dfft`; `sp.fft.fft` is the documented sum; no tuples as probes, names or layout |
| `RossOnly` | `rotor_assembly.py` `Rotor.to_ross_only`; leakages of seals not modelled |
| `ResultsFile` | `results.py` `Results.save`, `Results.load`, `CampbellResults.save`, `CampbellResults.load`, the signatures of nine classes; shapes of arrays and results that hold objects not modelled |
| `Deflected` | `results.py` `plot_deflected_shape_2d`, `plot_deflected_shape_3d`, `plot_bending_moment`: the data; drawing not modelled |
| `FreqPlot` | `results.py` `FrequencyResponseResults` plots: the data and names of curves; drawing not modelled |
| `CampbellPlot` | `results.py` `CampbellResults.plot` and `_plot_with_mode_shape`: the traces; layout and the dash application not modelled |
| `FromTable` | `ShaftElement.from_table`, `DiskElement.from_table`, `BearingElement.from_table`, `table_to_toml`; NaN and `None` among numbers not modelled |
| `Summary` | `Rotor.summary`, `SummaryResults.plot`: content of the tables, without formats, colors and the column of zeros |
| `StaticPlot` | `StaticResults.plot_*`: points of the lines, tails, heads and texts of the arrows, without layout, units text and rounding |
| `Extrapolation` | `Rotor._check_frequency_array` and the analyses that call it; a warning is a boolean beside the result |
| `Export` | `Rotor.save_mat`: the dictionary, not the file |
| `StochasticFilm` | `ST_BearingElement.from_fluid_flow`; numbers in SI units |
| `StPlots` | the plots of the four random results; coordinates only, with the sizes of the palettes |
| `StResultsFile` | `ST_Results.save`, `read_toml_data`, `load` |
| `RespPlots` | `Probe.get_label`, tables and figures of `ForcedResponseResults` and `TimeResponseResults` |
| `ModePlots` | figures of `Orbit`, `Shape`, `ModalResults` and modes of `UCSResults` |
| `MapPlots` | figures of `UCSResults`, `Level1Results` and `BearingElement` |
| `RotorPlot` | `plot_rotor` and the `_patch` methods; widths and opacities not modelled |
| `RotorHeights` | heights of bearings and point masses (`Rotor.__init__` 489-551) and the icons of `BearingElement._patch`, `PointMass._patch` |
| `MatrixPlot` | `visualize_matrix` (`utils.py` 313-434) without colours and layout |
| `FigureData` | `get_data_from_figure` (`utils.py` 568-628); titles of the axes of the figures of responses |
| `FilmPlots` | the six figures of `fluid_flow_graphics.py`: names and points, beginning with an empty figure |
| `CoAxialPos` | the axial positions of elements and nodes, the outer diameters at nodes and the centre of mass in `CoAxialRotor.__init__` |

Not modelled: other figures than those named above, tables for display, logging, progress messages, warnings
that do not change control flow (but for C112), and the parts
named in the header comment of each model file.

Contracts of third-party code (hypotheses of the theorems, never axioms; each is shown satisfiable
beside the theorems):

* `Spec.ScipyContract` – interpolants pass through the table and fail on bad tables as scipy does.
* `Spec.LapackOk`, `Spec.Full` – `eig` returns the eigenvalues with multiplicity and eigenvectors;
  `eigs` returns eigenpairs or fails; `Full` says the eigenvectors form a basis.
* `Spec.EighOk` – `eigh(K, M)` returns `M`-orthonormal eigenvectors.
* `Spec.EighLower` – as `EighOk`, for the symmetric matrix made of the lower triangle, which is what
  `eigh` reads (the faults pass it a matrix that need not be symmetric).
* `SortsRows` – pandas' `sort_values` returns a permutation of the rows (its order among equal keys
  is left open).
* `Spec.FindsRoots` – `Polynomial.roots()` returns the complex roots with multiplicity, in any order.
* `np.sort` – a sorted permutation.
* `Spec.Fluid.RootsOk` – `np.roots` returns the roots, and scipy's `root` a root when started at one.
* `Spec.Fluid.SolverOk` – `spsolve` solves a system that has a solution.
* `Spec.Fluid.RuleOk` – `simpson` is a weighted sum of the samples.
* `Spec.NewtonOk` – the result of `newton` is the zero of a line through two points of the graph, within the tolerance of the
  second.  (A root is not guaranteed by scipy, nor assumed.)
* `Spec.Fluid.SolverOk` is also assumed of `np.linalg.solve` (C92, C93, C95).
* `Spec.Thd.FitOk` – `curve_fit` of two parameters to two points passes through them.
* `Spec.Thd.Descends` – the result of `minimize` is not worse than its start.
* `Spec.ArgsortOk` – `argsort` lists all indices in an order that sorts.

## Where code and property disagree

Each is a theorem about the model (a negation with a witness, or an exact characterisation).

* C02 – a material whose name contains a space is stored under another name and cannot be loaded
  (`C02_space_name_not_loadable`).
* C10 – `shaft_element.py:1875` has `7 * phi * 2` for `7 * phi**2` (`C10_gyro_false`).
* C11 – axial and torsional inertia of tapered 6-dof elements (`C11_false`).
* C15 – bearings that are accepted but cannot be evaluated (`C15_evaluates_false`, `C15_six_false`).
* C17 – point masses and link nodes are not checked (`C17_disagree_*`).
* C22 – two bearings on the last node are refused; `CoAxialRotor` can loop forever
  (`C22_two_bearings_last_refused`, `C22_coaxial_diverges`).
* C25 – selecting modes other than the first ones uses the wrong conjugates (`C25_false`).
* C26 – unbalance on a second support node (`C26_support_false`).
* C27 – integer time arrays truncate the displacements (`C27_integer_false`).
* C29 – the refined rotor is another one for tapered elements (`C29_taper_false`), flexible supports
  (`C29_supports_false`), 6-dof rotors (`C29_six_false`) and layered shafts (`C29_layers_false`); axial
  force, torque, material damping and the shear method are dropped (`C29_tiles`), `n_link` is not
  renumbered.
* C30 – a seal comes back with half its scale factor (`C30_seal_false`); a 6-dof point mass, a ball bearing,
  a roller bearing and a fluid-film bearing cannot be saved (`C30_pm6_false`, `C30_rolling_false`,
  `C30_fluidflow_false`); a cylindrical bearing is saved and cannot be loaded (`C30_cylindrical_false`); a file with several elements gives
  back the first one only (`C30_shared_false`).
* C31 – the same of rotors with seals (`C31_seal_false`) and 6-dof point masses (`C31_pm6_false`); the tag of the
  rotor is lost (`C31_tag_false`).
* C32 – not part of the property: a decorated function drops surplus positional arguments
  (`C32_surplus_false`).
* C33 – a table of whole numbers only is rejected (`C33_int_false`): its rows hold `numpy.int64`, which is no
  instance of `int`.  "rpm" is missed when it stands below the header and a mention of pounds or inches
  (`C33_rpm_false`).  In these units the optional columns `kyy` and `cyy` are not optional, nor are the
  speeds when "rpm" is mentioned (`C33_optional_false`); the optional column `n` of shafts never is
  (`C33_shaft_n_false`).  Torques are not converted (`C33_torque_false`).  The table of materials is found by
  its key word in any case of letters, but its column is only read when it is called exactly `matno`.
* C36 – order of unrounded eigenvalues (`C36_exact_false`).
* C41 – the friction is tangential only where the components of the displacement are equal
  (`C41_tangent_iff`), can push along the sliding (`C41_against_false`), and the force is NaN when the point
  of contact is at rest (`C41_nan`).
* C42 – the combined type applies the torques twice (`C42_torque_false`); the third pin of the parallel type
  has the wrong sign (`C42_pitch_false`); opposite offsets are not told apart (`C42_opposite`).
* C43 – the time vector has one sample more than the response when the interval is not a whole number of
  steps (`C43_false`).
* C53 – the unbalance of a fault rotates against the rotor (`C53_mirror`, `C53_direction_false`).
* C54 – the cracked stiffness matrix uses slopes of the opposite sign of those of the shaft element: a crack of
  depth zero resists a rigid rotation (`C54_rigid_false`) and its moments are not balanced
  (`C54_moment_false`); it cancels the axial and torsional stiffness whatever the depth (`C54_axial_false`);
  every matrix of local compliances of the shipped table is indefinite (`tableRows_facts`), so that a deep crack
  stiffens a short element (`C54_stiffer_false`).
* C38 – the attitude angle multiplies by the eccentricity instead of dividing (`C38_attitude_false`); a speed
  of zero, which the constructor means to support, makes it fail (`C38_zero_false`; in exact arithmetic, as the
  polynomial is then `(1-x)⁴`); a negative speed gives negative damping (`C38_reverse`).
* C39 – the ratio of the stiffnesses is extrapolated below zero (`C39_ball_positive_false`,
  `C39_roller_positive_false`); lists of three are accepted by the magnetic bearing
  (`C39_magnetic_list_false`).  The docstrings say `1.25*10e-5` for the default damping, the code uses `1.25e-5`.
* C44 – reducing a 6-dof rotor with conical elements inherits the gyroscopic error of C10.
* C45 – the length of `idr_data` given without `odr_data` is not checked (`C45_lengths_false`);
  `disk_data` and `brg_seal_data` cannot be omitted (`C45_optional_false`).
* C46 – synchronous reduction of 6-dof rotors (`C46_six_false`).
* C57 – a node that moves on a line is called Backward (`C57_line_false`).
* C59 – the amplitude at an angle is the distance of the sampled point seen there, not the projection that a
  probe sees (`C59_line_false`); angles below zero select the point closest to zero (`C59_negative`), angles
  that differ by a turn give different amplitudes (`C59_period_false`); the phase is not that of the signal
  (`C59_phase_false`).
* C60 – the type of a mode depends on the arbitrary factor of its eigenvector (`C60_type_false`); a vector with
  no lateral component cannot be normalized (`C60_axial`).
* C62 – a mode on thin orbits run clockwise is Forward, its shape Backward (`C62_thin_false`).
* C63 – a node of the shaft that a bearing is linked to is taken for a support, and another degree of freedom is
  read (`C63_linked_false`).
* C64 – magnitude and phase of a probe at a support raise an error (`C64_support_false`).
* C65 – a numeric angle is a phase of the vibration, not the direction of a probe (`C65_probe_false`).
* C66 – between the ends of the shaft the moments of both adjacent elements are added, so that the reported
  bending moment is twice the true one for equal elements (`C66_interior_false`).
* C67 – the colour of a random disk is passed in the place of the scale factor (`C67_disk_false`).
* C68 – plotting the random parameters of a shaft element with random material removes the material from them, so
  that the element gives no elements afterwards (`C68_plot_false`); the caller's `is_random` is extended
  (`C68_list_false`).
* C69 – node positions are those of the first sample, not means (`C69_position_false`); the random elements in the
  lists of the caller are replaced, so that the lists cannot be used again (`C69_lists_false`).
* C70 – modes, clustering and tolerance are dropped when the unbalance is not random (`C70_options_false`); with a list
  of samples for each of several nodes, samples are looked up by node (`C70_nodes_false`, `C70_mixed_false`); rotors
  without a force have zero responses (`C70_truncated_false`).  The documentation wants the samples of a force in its
  third dimension; the code takes them from the first.
* C71 – a list of materials raises an `AttributeError` (`C71_list_false`).
* C73 – input and output degrees of freedom are swapped (`C73_response_false`).
* C75 – wear further than a quarter turn from the vertical narrows the stator elsewhere (`C75_wear_false`).
* C76 – the attitude angle of a moved rotor loses the quadrant, so that the surface is described around the mirror image
  of the position (`C76_quadrant_false`); at the centre it is `nan`.
* C77 – bearings are long from 4 diameters on, not 8 (`C77_type_false`); with load and eccentricity given, the ratio of a
  short bearing is the one of the load (`C77_ratio_false`).
* C79 – the load of an eccentricity uses the radius of the stator, the force that of the rotor (`C79_balance_false`).
* C81 – in the first column the finite differences use the coefficients of the last column, which is the first again,
  instead of the last but one, so that mass is not conserved there (`C81_seam_false`); with fewer than four columns entries
  overwrite each other.
* C82 – `force_type="long"` is ignored for short bearings (`C82_type_false`); short and long bearings of other shapes are
  not refused and get the pressure of cylindrical ones (`C82_shape_false`).
* C83 – the force of a long bearing is that of the positive half of the film even if the fluid comes in with a pressure that
  keeps the whole film positive (`C83_long_false`); `force_type="long"` is ignored for short bearings (`C83_type_false`).
* C84 – the load of a bearing built from an eccentricity uses the radius of the stator, the film force that of the rotor, so that
  its stiffness and damping are too large by their ratio (`C84_load_false`).
* C86 – with a range of speeds the number of modes is not `num_modes` but all but four degrees of freedom (`C86_at_most`).
* C87 – a diagram needs as many modes as columns at every speed, otherwise the call raises (`C87_few`); undamped frequencies
  only reorder the modes of lowest damped frequency (`C87_undamped`).
* C88 – supports and point masses are left out of the rotor on springs while bearings on them are kept, so that such a rotor has
  no map (`C88_support_false`); an odd number of natural frequencies does not fit (`C88_fits`, `C88_num_modes`).
* C89 – without a range or a rated speed the call raises (`C89_default_false`); `n`, announced as a number of steps, is the node
  (`C89_node`); the values, announced on a logarithmic scale, are evenly spaced (`C89_shape`).
* C93 – the number by which turbulence is judged is the Reynolds number over the length of the bearing in metres
  (`C93_reynolds_false`).
* C94 – the oil that leaves a pad is mixed into the wrong pad when there are three or more (`C94_mixing_false`); a number as
  groove factor, which is documented, raises (`C94_number_false`).
* C95 – of the cells at the edges of the pads only a half counts (`C95_resultant_partial`, `C95_resultant_false`), and between
  two pads the pressure is continued over the groove (`C95_groove_false`); a supply below 2.5 °C raises (`C95_cold_false`), as
  do seven pads (`C95_seven`).
* C96 – the start of the minimisation is overwritten at each evaluation, so that the coefficients at a speed may depend on the
  speeds before it (`C96_rows_false`).
* C97 – the coefficients carry a factor, twice the Sommerfeld number times the load, which is 1 only by accident: with the
  default type it is about the square of the ratio of diameter and length (`C97_scale_false`); they are undefined when the
  attitude angle is a multiple of a right angle (`C97_steps`).
* C98 – the constructor of bearings is called with the arguments in the wrong places (`C98_places_false`), so that with more
  than one speed it raises (`C98_speeds_false`); `oil_flow`, which is optional, is needed by every bearing (`C98_refused`).
* C96 – the Lund method uses the pressures of the point that the minimisation evaluated last, which need not be the equilibrium
  (`C96_lund_false`).
* C99 – without an injection pressure, which is the default, the Lund method raises as soon as a cell at the entry of a pad is
  under pressure (`C99_default_false`); with one other than 0, its pressures are not the derivatives of the pressure of the
  film, which takes it for 0 (`C99_injection_false`).
* C100 – a cell that has once been without pressure does not get it again in the sweeps, and may end with a filling of more
  than 1 (`C100_fill_false`); in a cell without pressure at the entry of a pad the injected oil is not counted
  (`C100_entry_false`).
* C101 – without an injection pressure, which is the default, starved bearings raise (`C101_default_false`);
  the oil that passes a section is calculated from the filling at one edge of the bearing (`C101_flow_false`).
* C102 – a shaft element with four and one with six degrees of freedom per node are `==` (`C102_class_false`); materials are
  compared to five digits (`C102_stiffness_false`), and so are disks, in a way that depends on the order and is not transitive
  (`C102_disk_false`); comparing ball, roller or fluid-film bearings raises `AttributeError` (`C102_rolling_false`); cylindrical
  bearings that differ in the tag alone are `==` and have different hashes (`C102_cylindrical_hash_false`).
* C103 – the mean value is shown doubled (`C103_mean_false`), the highest tone of an odd number of samples is not shown
  (`C103_highest_false`), and a probe at the second or a later support reads another degree of freedom (`C103_support_false`).
* C104 – `to_ross_only` loses the masses of bearings (`C104_mass_false`) and raises for 6-dof rotors with bearings
  (`C104_six_false`).
* C105 – complex arrays are converted back only if the longest text has 40 to 49 characters (`C105_complex_false`);
  dictionaries come back as arrays without dimensions (`C105_dict_false`), and saving those empties the file
  (`C105_again_false`); `load` always reads the first table of the file (`C105_second_false`); the function of a
  Campbell diagram becomes a text (`C105_campbell_false`).
* C106 – the first speed within `1e-5` of the requested one is shown (`C106_speed_false`); markers of unbalances are
  converted to the units twice (`C106_marker_false`); `plot_deflected_shape_3d` raises for velocities and accelerations
  (`C106_velocity_false`) and for responses to general forces (`C106_none_false`).
* C107 – the plots show entry `[inp, out]` of the transfer matrix, which is the motion at `inp` under a force at `out`
  (`C107_swapped`, `C107_response_false`, `C107_gyro_false`); negative phases are increased by 360 in every unit but
  radians (`C107_phase_false`); supports are named as if they had as many degrees of freedom as shaft nodes
  (`C107_label_false`).
* C108 – axial and torsional modes are drawn whatever the ranges (`C108_axial_false`); critical speeds are marked for modes
  outside the damping range (`C108_damping_false`); without critical speeds the modal analyses for clicks are run at the
  abscissae of whatever trace comes first (`C108_extra_false`); diagrams of natural frequencies are sorted but the shapes
  they refer to are not, and clicks compare with damped frequencies (`C108_natural_false`).
* C109 – no "Simple" sheet makes a shaft (`C109_simple_false`), other kinds of sheets give an empty list
  (`C109_kind_false`), `alpha` and `beta` are looked up but never read (`C109_damping_false`) and the text "False" in a
  column of flags is taken for true (`C109_flags_false`).
* C110 – `summary()` stores the merged frames back into the rotor: the second summary has no column `nodes_pos_l` and
  cannot be drawn, the third one can (`C110_again_false`).  A rotor without disks has no summary (`C110_disks_false`).
* C111 – the loop over the disks of `plot_free_body_diagram` is inside the loop over the bearings: every disk is drawn once
  for every node with bearings and the forces shown do not balance (`C111_disks_false`).  Disks on one node share one entry
  of `disk_forces_nodal`: only the last is shown (`C111_same_node_false`).
* C112 – only `run_freq_response` and `run_campbell` look at the tables of the bearings; forced and unbalance responses and
  modal analyses extrapolate without a warning (`C112_others_false`).
* C113 – `transfer_matrix` divides by `1j * speed - evals` whatever the excitation frequency is, and takes `_lti` at the
  speed: with a frequency other than the speed it does not return the response at this frequency
  (`C113_frequency_false`).
* C115 – `from_fluid_flow` of random bearings lists `omega` among the parameters that can be random, but takes it out of
  the dictionary in which it looks for the random parameters: `is_random=["omega"]` raises `KeyError`
  (`C115_omega_false`).  `immediately_calculate_pressure_matrix_numerically` is not passed on.
* C116 – random phases are averaged between `-π` and `π`: of the responses `-1 + i` and `-1 - i` the mean phase is 0
  (`C116_phase_false`).  The curves of the random polar diagram have `thetaunit="radians"` even when the phases are in
  degrees (`C116_polar_false`).  In three dimensions the lower curve of a confidence interval keeps its position in
  metres (`C116_3d_false`).  More than 24 percentages, or ten probes, run out of colors and raise `IndexError`.
* C117 – `ST_Results.load` takes texts for complex numbers only if the longest has exactly 49 characters (`Results.load`
  allows 40 to 49): responses whose real parts are all positive, for one, come back as texts (`C117_complex_false`).  Only
  the first results of a file can be loaded (`C117_second_false`).
* C118 – the tables of forced responses are dicts by tag: of two probes with one tag only the second is kept
  (`C118_tags_false`; C64 is about the columns before they are named), and a probe with the tag "frequency" replaces the
  frequencies (`C118_frequency_false`).  More than ten probes have no colors (`C118_colors_false`).  Polar figures know
  radians and degrees only (`C118_polar_false`).  `TimeResponseResults.plot_1d` converts the displacements, which its table
  has converted, once more (`C118_units_false`).
* C119 – `ModalResults.plot_mode_2d` does not hand on the unit of length to `Shape.plot_2d` and labels the axis with it
  (`C119_units_false`).  The orientations `x` and `y` draw the tip of each orbit, so points of one curve belong to different
  instants (`C119_instant_false`).  Titles take the direction from `whirl_direction`, colors from the shape, and these
  differ for lines (`C119_title_false`, compare C62).  `UCSResults` finds its mode by frequency (`C119_critical_false`).
* C120 – `BearingElement.plot` takes the range of frequencies from the table, so a bearing with constant coefficients and no
  table has no figure: `min(None)` is a `TypeError` (`C120_constant_false`).
* C121 – `plot_rotor` computes sizes from masses only if all disks ask for `scale_factor="mass"`; if only some do, the
  attribute it then reads is missing (`C121_mixed_false`).  The text of a `PointMass6DoF` shows `my` as the mass in direction
  `z` (`C121_axial_mass_false`).
* C123 – the list of contributions in the heat map of a matrix leaves out what a linked bearing has at its link node, because
  `zip` stops at the shorter list of indices (`C123_linked_false`); a matrix to which no element contributes cannot be drawn
  (`C123_zero`, `C123_undamped_false`).
* C124 – of two curves with the same name, as two probes with the same tag have in the figure of a time response, the table
  made of the figure keeps only the last (`C124_tags_false`).
* C126 – two disks or bearings on the last node of a shaft of a `CoAxialRotor` are listed without a shaft: each
  takes the number of the other, which is missing (`C126_together_false`).
* C127 – `plot_pressure_theta` draws only the pressure by finite differences when both are there
  (`C127_round_false`); `plot_pressure_surface` draws nothing when only the other one is (`C127_surface_false`);
  `plot_pressure_theta_cylindrical` draws the columns at angles that are too large (`C127_ring_false`).
* C129 – a link between elements of different lengths moves the two ends of the elements by different amounts, so that
  they no longer span their lengths (`C129_lengths_false`); a coaxial rotor of one element begins at its length instead
  of 0 (`C129_first_false`); with three shafts `nodes_pos` takes a node number for a row (`C129_nodes_false`).
* C130 – a link that moves a shaft does not move the centres of mass that its earlier elements have stored
  (`C130_moved_false`), so that `CG` of such a coaxial rotor is wrong (`C130_centre_false`).
  The column of the table is to be moved too, but the move is calculated after the rows have moved and is 0
  (`C130_column_false`).
* C131 – a node number taken for a row goes beyond the table with four short shafts, and the constructor raises `IndexError`
  (`C131_four_false`); `L` is the end of the last shaft in the list, not the furthest end (`C131_length_false`).
* C51 – linked bearings are refused in the pseudo-modal method (`C51_linked`).
* C52 – shear diagram of a shaft of one element (`C52_single_false`); both diagrams where an element grows or becomes thinner:
  its weight is divided by the centre of gravity in one place and by the mass matrix in the other, and the moment of its
  weight is that of a trapezoid (`C52_taper_false`; `C52_shear` and `C52_bending` give the errors exactly).

Remarks on `run_static` that the theorems' hypotheses reflect: bearings of classes with other
constructor arguments raise `TypeError`; a rotor whose bearings are all seals raises `ValueError`;
links to nodes off the shaft count as ground; point masses are ignored; a shaft element or disk
named like a default bearing tag ("Bearing 0") makes the auxiliary rotor refuse the tags, hence
`TagsFree`; tapered elements are lumped at their ends by the centre of gravity, which differs from
the consistent mass matrix, hence the errors in C52.  `integrate_system` uses the mass matrix at
frequency 0 even if bearings have frequency-dependent mass.

## Axioms

`#print axioms` of every theorem in `MANIFEST.json` lists only `propext`, `Classical.choice` and
`Quot.sound` (or fewer).  There are no own axioms, no `sorry`, no `native_decide` or `bv_decide`.
