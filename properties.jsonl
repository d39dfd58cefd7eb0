{"id": "C01", "title": "Elastic constants of a material are mutually consistent", "statement": "Building a Material from exactly two of E, G_s and Poisson stores three constants that satisfy E = 2*G_s*(1+Poisson), keeps the two given values unchanged, and any other number of given constants, or a space in the name, is refused with ValueError.", "quantifier": "every name, density and every choice of given/omitted constants", "why_tests_cant": "All real values and all 8 presence patterns must behave; tests sample a few numbers.", "anchors": ["ross/materials.py:Material.__init__"]}
{"id": "C02", "title": "The material library is a map from names to materials", "statement": "After any sequence of save_material / remove_material / load_material / available_materials calls, load_material(name) returns a material with the rho, E, G_s and colour of the most recent save_material under that name since its last removal, with Poisson consistent with them; it raises KeyError exactly when there is none; operations on one name do not disturb another.", "quantifier": "every finite history of library operations on any names", "why_tests_cant": "The claim ranges over unbounded histories or list lengths; a test replays only the few it was written for.", "anchors": ["ross/materials.py:Material.save_material", "ross/materials.py:Material.load_material", "ross/materials.py:Material.remove_material", "ross/materials.py:Material.available_materials"]}
{"id": "C03", "title": "A disk's inertia data and matrices describe the solid it is built from", "statement": "DiskElement.from_geometry returns the mass, polar and diametral inertia of the homogeneous hollow cylinder of the given width and diameters (volume integrals over it); M() is symmetric with the mass on both translations, G() is skew-symmetric so it does no work, K() and C() vanish; the 6-dof disk restricted to the bending dofs equals the 4-dof disk.", "quantifier": "every density, width, inner and outer diameter (and every m, Id, Ip for the matrices)", "why_tests_cant": "The claim ranges over a continuum of real parameters; a unit test evaluates finitely many floating-point samples.", "anchors": ["ross/disk_element.py:DiskElement.from_geometry", "ross/disk_element.py:DiskElement.M", "ross/disk_element.py:DiskElement.G", "ross/disk_element.py:DiskElement6DoF"]}
{"id": "C04", "title": "Section and volume data of a (tapered) shaft element are those of the frustum", "statement": "For a ShaftElement, volume, m, beam_cg and Im equal the integrals over the length of the area, rho*area, x*area/volume and rho*polar second moment of the hollow section whose diameters vary linearly from the left to the right end; A and Ie are the mid-span values.", "quantifier": "every length, left/right inner/outer diameters and density", "why_tests_cant": "The claim ranges over a continuum of real parameters; a unit test evaluates finitely many floating-point samples.", "anchors": ["ross/shaft_element.py:ShaftElement.__init__"]}
{"id": "C05", "title": "The shaft element mass matrix is the consistent Timoshenko mass matrix", "statement": "Every entry of ShaftElement.M() equals the Galerkin integral of rho*A(x)*N_i*N_j plus (when rotary inertia is on) rho*I(x)*theta_i*theta_j for the Timoshenko shape functions of a beam with linearly varying diameters; hence M() is symmetric and u^T M u > 0 for every nonzero u.", "quantifier": "every geometry, material and shear parameter; every entry of the 8x8 matrix; every vector u", "why_tests_cant": "The claim ranges over a continuum of real parameters; a unit test evaluates finitely many floating-point samples.", "anchors": ["ross/shaft_element.py:ShaftElement.M"]}
{"id": "C06", "title": "A shaft element carries its own weight", "statement": "Moving both nodes of a ShaftElement rigidly with unit velocity in x (or y) has inertia u^T M u equal to the element mass rho*volume, with and without rotary inertia, for tapered and hollow elements.", "quantifier": "every geometry and material", "why_tests_cant": "The claim ranges over a continuum of real parameters; a unit test evaluates finitely many floating-point samples.", "anchors": ["ross/shaft_element.py:ShaftElement.M", "ross/shaft_element.py:ShaftElement.__init__"]}
{"id": "C07", "title": "The shaft element stiffness matrix is the Galerkin Timoshenko stiffness", "statement": "Every entry of ShaftElement.K() without torque equals the integral of E*I(x)*theta_i'*theta_j' + kappa*G*A(x)*gamma_i*gamma_j + F*w_i'*w_j' for the Timoshenko shape functions; K() is symmetric exactly when the torque is zero; with no compressive axial force and no torque u^T K u >= 0 for every u.", "quantifier": "every geometry, material, axial force and torque; every entry; every vector u", "why_tests_cant": "The claim ranges over a continuum of real parameters; a unit test evaluates finitely many floating-point samples.", "anchors": ["ross/shaft_element.py:ShaftElement.K"]}
{"id": "C08", "title": "Rigid motions of a shaft element are stress free", "statement": "K() of a shaft element sends rigid translations in x and y to zero whatever the axial force and torque, and rigid rotations to zero when there is no axial force and no torque; with an axial force F the rigid rotation needs exactly the couple F*L.", "quantifier": "every geometry, material, axial force, torque", "why_tests_cant": "The claim ranges over a continuum of real parameters; a unit test evaluates finitely many floating-point samples.", "anchors": ["ross/shaft_element.py:ShaftElement.K"]}
{"id": "C09", "title": "The gyroscopic matrix of a shaft element is the consistent one and does no work", "statement": "ShaftElement.G() is skew-symmetric for every element, every entry is the Galerkin integral of the polar inertia 2*rho*I(x)*theta_i*theta_j with the orientation of the two planes, and it is zero when gyroscopic=False.", "quantifier": "every geometry and material; every entry", "why_tests_cant": "The claim ranges over a continuum of real parameters; a unit test evaluates finitely many floating-point samples.", "anchors": ["ross/shaft_element.py:ShaftElement.G"]}
{"id": "C10", "title": "4-dof and 6-dof shaft elements agree on bending", "statement": "Deleting the axial and torsional rows and columns of ShaftElement6DoF.M(), K() and G() gives ShaftElement.M(), K() and G() of the same element.", "quantifier": "every geometry, material, flags, axial force and torque", "why_tests_cant": "The claim ranges over a continuum of real parameters; a unit test evaluates finitely many floating-point samples.", "anchors": ["ross/shaft_element.py:ShaftElement6DoF.M", "ross/shaft_element.py:ShaftElement6DoF.K", "ross/shaft_element.py:ShaftElement6DoF.G"]}
{"id": "C11", "title": "Axial and torsional parts of the 6-dof shaft element", "statement": "Rigid axial translation and rigid spin of a ShaftElement6DoF need no force (K u = 0) and carry the element mass rho*volume and polar inertia Im; the axial/torsional dofs are uncoupled from bending.", "quantifier": "every geometry and material", "why_tests_cant": "The claim ranges over a continuum of real parameters; a unit test evaluates finitely many floating-point samples.", "anchors": ["ross/shaft_element.py:ShaftElement6DoF.M", "ross/shaft_element.py:ShaftElement6DoF.K"]}
{"id": "C12", "title": "Element damping is proportional", "statement": "C() of a shaft element equals alpha*M() + beta*K() entry by entry for both element classes.", "quantifier": "every element and every alpha, beta", "why_tests_cant": "The claim ranges over a continuum of real parameters; a unit test evaluates finitely many floating-point samples.", "anchors": ["ross/shaft_element.py:ShaftElement.C", "ross/shaft_element.py:ShaftElement6DoF.C"]}
{"id": "C13", "title": "Splitting a shaft section preserves the geometry", "statement": "ShaftElement.section(L, ne, ...) returns ne elements whose lengths sum to L, whose diameters join continuously from the section's left to its right diameters along the same linear taper, and whose volumes (hence masses) sum to the volume of the unsplit element.", "quantifier": "every ne >= 1, every length and diameters", "why_tests_cant": "Unbounded number of elements and real diameters.", "anchors": ["ross/shaft_element.py:ShaftElement.section"]}
{"id": "C14", "title": "Bearing matrices follow the coefficients and respect action-reaction", "statement": "K, C, M of a bearing at a frequency hold the (interpolated) coefficients with kyy, cyy, myy defaulting to kxx, cxx, mxx; when the bearing is linked to another node the 4x4 (6x6) matrix exerts equal and opposite forces on the two nodes and no force when both nodes move together.", "quantifier": "every coefficient set, frequency and displacement", "why_tests_cant": "The claim ranges over a continuum of real parameters; a unit test evaluates finitely many floating-point samples.", "anchors": ["ross/bearing_seal_element.py:BearingElement.__init__", "ross/bearing_seal_element.py:BearingElement.K", "ross/bearing_seal_element.py:BearingElement6DoF.K"]}
{"id": "C15", "title": "Bearing constructors reject inconsistent tables", "statement": "A bearing is built only if every coefficient list has the length of the frequency list (or length 1 without a frequency); otherwise ValueError is raised, so that K, C and M of a constructed bearing can always be evaluated.", "quantifier": "every combination of scalar and list coefficients and frequency lists of any length", "why_tests_cant": "The claim ranges over unbounded histories or list lengths; a test replays only the few it was written for.", "anchors": ["ross/bearing_seal_element.py:BearingElement.__init__", "ross/bearing_seal_element.py:BearingElement._process_coefficient", "ross/bearing_seal_element.py:BearingElement6DoF.__init__"]}
{"id": "C16", "title": "Point masses", "statement": "A PointMass built from m has mx = my (= mz) = m and M() is the diagonal matrix of the masses; giving only one of mx, my is refused.", "quantifier": "every argument combination", "why_tests_cant": "The claim ranges over a continuum of real parameters; a unit test evaluates finitely many floating-point samples.", "anchors": ["ross/point_mass.py:PointMass", "ross/point_mass.py:PointMass6DoF"]}
{"id": "C17", "title": "Global degrees of freedom are numbered consistently", "statement": "In every rotor that is constructed, each element's global dof indices are pairwise distinct and lie in [0, ndof); two elements share an index exactly when they are attached to the same node and direction; every index in [0, ndof) belongs to some element when the shaft nodes are consecutive.", "quantifier": "every list of shaft, disk, bearing and point-mass elements, any node numbers and links, 4 and 6 dof", "why_tests_cant": "The claim ranges over unbounded histories or list lengths; a test replays only the few it was written for.", "anchors": ["ross/rotor_assembly.py:Rotor.__init__", "ross/element.py:Element.dof_local_index"]}
{"id": "C18", "title": "Rotor matrices are the sum of element contributions", "statement": "M, K, C, G of a rotor equal the sum over elements of the element matrix placed at its global dofs, independently of the order of the elements; K(ignore=...) and C(ignore=...) equal the full matrix minus the ignored elements' contributions; symmetric (skew) element matrices give a symmetric (skew) rotor matrix.", "quantifier": "every list of elements, every ignore list, every entry", "why_tests_cant": "The claim ranges over unbounded histories or list lengths; a test replays only the few it was written for.", "anchors": ["ross/rotor_assembly.py:Rotor.M", "ross/rotor_assembly.py:Rotor.K", "ross/rotor_assembly.py:Rotor.C", "ross/rotor_assembly.py:Rotor.G"]}
{"id": "C19", "title": "Rotor mass and assembled mass matrix agree", "statement": "For a rotor whose bearings carry no mass coefficients, the kinetic energy of a unit rigid translation of all nodes computed from M() equals the sum of the element masses; rotor.m (shaft plus disks) equals it when there are no point masses.", "quantifier": "every rotor", "why_tests_cant": "The claim ranges over unbounded histories or list lengths; a test replays only the few it was written for.", "anchors": ["ross/rotor_assembly.py:Rotor.M", "ross/rotor_assembly.py:Rotor.__init__"]}
{"id": "C20", "title": "Node positions and rotor length", "statement": "With automatically numbered shaft elements the node positions start at 0, increase by the element lengths, and the last one is the sum of all lengths; layered elements sharing a left node start at the same position; the centre of gravity is the mass-weighted mean of element positions.", "quantifier": "every list of shaft elements", "why_tests_cant": "The claim ranges over unbounded histories or list lengths; a test replays only the few it was written for.", "anchors": ["ross/rotor_assembly.py:Rotor.__init__"]}
{"id": "C21", "title": "Element tags are unique in a constructed rotor", "statement": "If Rotor(...) returns, all element tags are present and pairwise distinct; untagged elements receive a tag; a duplicated tag raises ValueError.", "quantifier": "every list of elements and tags", "why_tests_cant": "The claim ranges over unbounded histories or list lengths; a test replays only the few it was written for.", "anchors": ["ross/rotor_assembly.py:Rotor.__init__"]}
{"id": "C22", "title": "Malformed rotors are refused in finite time", "statement": "Construction of a Rotor always terminates: a disk or bearing placed outside the shaft raises ValueError and a bearing linked to a node that nothing supports raises ValueError rather than looping; the same holds for CoAxialRotor.", "quantifier": "every list of elements and links", "why_tests_cant": "Termination for every input cannot be observed by running samples.", "anchors": ["ross/rotor_assembly.py:Rotor.__init__", "ross/rotor_assembly.py:CoAxialRotor.__init__"]}
{"id": "C23", "title": "State-space form is equivalent to the equation of motion", "statement": "For invertible M, x' = A(x) with x=(q, q') holds iff M q'' + (C + Omega G) q' + K q = 0; every eigenpair of A yields (lambda^2 M + lambda (C+Omega G) + K) v = 0 and conversely.", "quantifier": "every size, matrices, speed and state", "why_tests_cant": "The claim ranges over a continuum of real parameters; a unit test evaluates finitely many floating-point samples.", "anchors": ["ross/rotor_assembly.py:Rotor.A"]}
{"id": "C24", "title": "The frequency response is the inverse dynamic stiffness", "statement": "When A is diagonalised by evects with eigenvalues not equal to j*omega, the displacement transfer matrix H(omega) satisfies (K - omega^2 M + j omega (C + Omega G)) H = I; velocity and acceleration responses are j*omega*H and -omega^2*H.", "quantifier": "every rotor size and frequency", "why_tests_cant": "The claim ranges over a continuum of real parameters; a unit test evaluates finitely many floating-point samples.", "anchors": ["ross/rotor_assembly.py:Rotor.transfer_matrix", "ross/rotor_assembly.py:Rotor.run_freq_response"]}
{"id": "C25", "title": "Selecting modes in the frequency response", "statement": "Requesting a set of modes in run_freq_response keeps each selected mode together with its complex conjugate.", "quantifier": "every subset of modes and every number of modes", "why_tests_cant": "The claim ranges over unbounded histories or list lengths; a test replays only the few it was written for.", "anchors": ["ross/rotor_assembly.py:Rotor.transfer_matrix"]}
{"id": "C26", "title": "Forced and unbalance responses are linear and local", "statement": "The unbalance force of magnitude m and phase p at node n is m*w^2*e^{jp} on x and -j times that on y of node n and zero elsewhere; the response to several unbalances is the sum of the responses to each, and scales with magnitude; the forced response equals H(w) F(w).", "quantifier": "every node list, magnitude, phase and frequency", "why_tests_cant": "The claim ranges over unbounded histories or list lengths; a test replays only the few it was written for.", "anchors": ["ross/rotor_assembly.py:Rotor._unbalance_force", "ross/rotor_assembly.py:Rotor.run_unbalance_response", "ross/rotor_assembly.py:Rotor.run_forced_response"]}
{"id": "C27", "title": "Newmark integration satisfies the equation of motion at every step", "statement": "For a linear system the average-acceleration scheme returns displacements, velocities and accelerations that satisfy M a + C v + K y = F at every step up to the tolerance and the Newmark update relations; the solver converges in one correction; a step without forcing does not increase M v.v + K y.y when C is non-negative.", "quantifier": "every size, matrices, step size, force history and number of steps", "why_tests_cant": "The claim ranges over unbounded histories or list lengths; a test replays only the few it was written for.", "anchors": ["ross/utils.py:newmark"]}
{"id": "C28", "title": "Static analysis balances the weight", "statement": "run_static succeeds for a rotor held by bearings at two different nodes. The vertical bearing reactions it reports sum to the weight of shaft and disks, their moment about the left end is that of the weight acting at the centre of gravity, forces are reported exactly for the nodes with bearings that are not seals, and each is the force of the stiff springs at the reported displacement. The reported weights of shaft and disks are their masses times gravity.", "quantifier": "every accepted rotor with 4 or 6 degrees of freedom per node whose bearings lead to the ground; moments without axial force or torque", "why_tests_cant": "The claim ranges over a continuum of real parameters; a unit test evaluates finitely many floating-point samples.", "anchors": ["ross/rotor_assembly.py:Rotor.run_static"]}
{"id": "C29", "title": "Mesh refinement preserves the rotor", "statement": "convergence() analyses the same physical rotor with more elements: refined elements tile each original element with the same end diameters and material options, and disks, bearings and point masses stay at the same axial position.", "quantifier": "every rotor and refinement level", "why_tests_cant": "The claim ranges over unbounded histories or list lengths; a test replays only the few it was written for.", "anchors": ["ross/rotor_assembly.py:Rotor.convergence"]}
{"id": "C30", "title": "Elements survive save and load", "statement": "Saving any element to a file and loading it gives an element with the same constructor-visible data.", "quantifier": "every element class and every field value", "why_tests_cant": "The claim ranges over a continuum of real parameters; a unit test evaluates finitely many floating-point samples.", "anchors": ["ross/element.py:Element.save", "ross/element.py:Element.load", "ross/bearing_seal_element.py:BearingElement.save", "ross/bearing_seal_element.py:SealElement.__init__", "ross/point_mass.py:PointMass6DoF", "ross/shaft_element.py:ShaftElement.save"]}
{"id": "C31", "title": "Rotors survive save and load", "statement": "Rotor.save followed by Rotor.load returns a rotor with the same shaft, disk, bearing and point-mass elements in the same order, for every number of elements and tags.", "quantifier": "every rotor", "why_tests_cant": "The claim ranges over unbounded histories or list lengths; a test replays only the few it was written for.", "anchors": ["ross/rotor_assembly.py:Rotor.save", "ross/rotor_assembly.py:Rotor.load"]}
{"id": "C32", "title": "Unit conversion is by argument name and independent of calling style", "statement": "A quantity argument reaches the function as its magnitude in the library unit for its name; plain numbers pass unchanged; positional and keyword passing give the same values; None is passed as None.", "quantifier": "every argument name, value and unit", "why_tests_cant": "The claim ranges over a continuum of real parameters; a unit test evaluates finitely many floating-point samples.", "anchors": ["ross/units.py:check_units"]}
{"id": "C33", "title": "Tables are read from the first contiguous numeric block", "statement": "read_table_file returns exactly the rows of the contiguous numeric block under the header, in order, with the documented column aliases and unit conversions.", "quantifier": "every sheet of any size", "why_tests_cant": "The claim ranges over unbounded histories or list lengths; a test replays only the few it was written for.", "anchors": ["ross/utils.py:read_table_file"]}
{"id": "C34", "title": "Curve intersections are real intersections", "statement": "Every point returned by intersection(x1,y1,x2,y2) lies on a segment of each polyline, and every transversal crossing of two segments is returned.", "quantifier": "every pair of polylines of any length", "why_tests_cant": "The claim ranges over unbounded histories or list lengths; a test replays only the few it was written for.", "anchors": ["ross/utils.py:intersection"]}
{"id": "C35", "title": "Probes are validated", "statement": "A Probe is created only with direction radial and an angle, or direction axial (angle dropped); info returns node, angle, direction.", "quantifier": "every argument combination", "why_tests_cant": "All argument combinations.", "anchors": ["ross/probe.py:Probe"]}
{"id": "C36", "title": "Modal ordering keeps all eigenvalues and puts forward modes first", "statement": "The ordering used by run_modal is a permutation of the eigenvalues and, for conjugate pairs, its first half has non-negative imaginary part in increasing order.", "quantifier": "every list of complex eigenvalues", "why_tests_cant": "The claim ranges over unbounded histories or list lengths; a test replays only the few it was written for.", "anchors": ["ross/rotor_assembly.py:Rotor._index"]}
{"id": "C37", "title": "Automatic frequency clustering", "statement": "The frequency array used when none is given starts at 0, is increasing, and for every (selected) natural frequency has num_points points below it and num_points points above it; num_points outside 2..12 is replaced by 10 or 4.", "quantifier": "every list of positive frequencies, dampings and cluster settings", "why_tests_cant": "The claim ranges over unbounded lists; a test replays only the few it was written for.", "anchors": ["ross/rotor_assembly.py:Rotor._clustering_points"]}
{"id": "C38", "title": "Cylindrical bearing equilibrium", "statement": "For every positive speed, load, geometry and viscosity there is exactly one eccentricity ratio in (0,1) solving the equilibrium polynomial, it is the one at which the short-bearing film force balances the weight, the attitude angle is the angle of that force, and each speed gets its own coefficients.", "quantifier": "every positive operating point", "why_tests_cant": "The claim ranges over a continuum of real parameters; a unit test evaluates finitely many floating-point samples.", "anchors": ["ross/bearing_seal_element.py:CylindricalBearing.__init__"]}
{"id": "C39", "title": "Rolling and magnetic bearing stiffness laws", "statement": "Ball, roller and magnetic bearings return the documented stiffness laws: symmetric positive stiffness without cross coupling, default damping proportional to stiffness; the magnetic bearing stiffness is ki*k_amp*k_sense*kp + ks.", "quantifier": "every parameter value", "why_tests_cant": "The claim ranges over a continuum of real parameters; a unit test evaluates finitely many floating-point samples.", "anchors": ["ross/bearing_seal_element.py:BallBearingElement", "ross/bearing_seal_element.py:RollerBearingElement", "ross/bearing_seal_element.py:MagneticBearingElement"]}
{"id": "C40", "title": "Runge-Kutta integrators have their nominal order", "statement": "On linear autonomous systems one rk4 step is the degree-4 Taylor polynomial of the exact flow and one rk45 (Cash-Karp) step agrees with it through degree 5; the number of returned columns is the number of steps plus one and the first is the initial state.", "quantifier": "every linear system, step and number of steps", "why_tests_cant": "The claim ranges over unbounded histories or list lengths; a test replays only the few it was written for.", "anchors": ["ross/faults/integrate_solver.py:Integrator.rk4", "ross/faults/integrate_solver.py:Integrator.rk45"]}
{"id": "C41", "title": "Rubbing force law", "statement": "The rubbing force is zero while the radial displacement is below the clearance and acts only on the rubbing node; in contact the elastic part is k*(r-delta) towards the centre; friction acts along the tangent against sliding.", "quantifier": "every displacement, velocity and parameters", "why_tests_cant": "The claim ranges over a continuum of real parameters; a unit test evaluates finitely many floating-point samples.", "anchors": ["ross/faults/rubbing.py:Rubbing._rub"]}
{"id": "C42", "title": "Misalignment forces are internal", "statement": "The misalignment force acts only on the two coupling nodes with equal and opposite transverse forces; the combined type applies the sum of the parallel and angular transverse forces and the driving torque once.", "quantifier": "every angular position and parameters", "why_tests_cant": "The claim ranges over a continuum of real parameters; a unit test evaluates finitely many floating-point samples.", "anchors": ["ross/faults/misalignment.py:MisalignmentFlex._parallel", "ross/faults/misalignment.py:MisalignmentFlex._angular", "ross/faults/misalignment.py:MisalignmentFlex._combined"]}
{"id": "C43", "title": "Time vector and fault response have the same length", "statement": "After running a fault the time vector has as many samples as the response has columns.", "quantifier": "every tI, tF, dt", "why_tests_cant": "The claim ranges over a continuum of real parameters; a unit test evaluates finitely many floating-point samples.", "anchors": ["ross/faults/rubbing.py:Rubbing.run", "ross/faults/integrate_solver.py:Integrator.rk4"]}
{"id": "C44", "title": "Dropping degrees of freedom", "statement": "remove_dofs deletes exactly every third row and column (or the listed ones) and keeps the others in order; it commutes with assembly, so a 6-dof rotor converted by convert_6dof_to_4dof has the number of dofs, the dof numbering and the mass, stiffness, damping, gyroscopic and state matrices of the 4-dof rotor built from the same elements.", "quantifier": "every matrix size, every list of dofs, every 6-dof rotor, frequency and speed", "why_tests_cant": "The claim ranges over unbounded histories or list lengths; a test replays only the few it was written for.", "anchors": ["ross/utils.py:remove_dofs", "ross/utils.py:convert_6dof_to_4dof", "ross/rotor_assembly.py:Rotor.A"]}
{"id": "C45", "title": "Rotor.from_section tiles the shaft", "statement": "from_section builds a rotor whose shaft elements tile the given sections in order with total length equal to the sum of the section lengths, and rejects inconsistent list lengths.", "quantifier": "every list of sections and nel_r", "why_tests_cant": "The claim ranges over unbounded histories or list lengths; a test replays only the few it was written for.", "anchors": ["ross/rotor_assembly.py:Rotor.from_section"]}
{"id": "C46", "title": "Synchronous mass matrix", "statement": "With synchronous=True the mass matrix of a rotor acts on every forward circular whirl as M - jG, so the synchronous system without gyroscopic matrix responds to whirl at the speed of rotation exactly as the complete system.", "quantifier": "every constructed rotor, every forward circular whirl, every speed", "why_tests_cant": "The claim ranges over all rotors and all whirl shapes; a test evaluates a few.", "anchors": ["ross/rotor_assembly.py:Rotor.M"]}
{"id": "C47", "title": "Passive rotors are stable", "statement": "If shaft elements and disks are physical and every bearing has symmetric, non-negative stiffness and damping, then the mass matrix is positive definite, the state matrix exists, every eigenvalue of the state matrix has real part at most zero at every speed, and below zero if in addition the bearings hold the shaft and there is damping everywhere.", "quantifier": "every constructed passive rotor, every speed and frequency", "why_tests_cant": "The claim ranges over all rotors and speeds; a test computes a few eigenvalues in floating point.", "anchors": ["ross/rotor_assembly.py:Rotor.A", "ross/rotor_assembly.py:Rotor.M", "ross/rotor_assembly.py:Rotor.K", "ross/rotor_assembly.py:Rotor.C", "ross/rotor_assembly.py:Rotor.G"]}
{"id": "C48", "title": "Modal quantities describe the eigenvalues", "statement": "run_modal returns eigenpairs of the state matrix; with natural frequency wn, damped frequency wd, damping ratio zeta and logarithmic decrement delta it holds lambda = -zeta*wn + j*wd, wd^2 = (1-zeta^2)*wn^2, zeta is positive exactly for decaying modes, and the free motion of an underdamped mode shrinks by exp(-delta) per damped period; each mode shape is a mode of the rotor.", "quantifier": "every constructed rotor, speed, number of modes, dense or sparse", "why_tests_cant": "The claim ranges over all rotors and speeds; a test computes a few eigenvalues in floating point.", "anchors": ["ross/rotor_assembly.py:Rotor.run_modal", "ross/rotor_assembly.py:Rotor._eigen"]}
{"id": "C49", "title": "Undamped rotors have a complete set of modes", "statement": "A rotor without damping, made of passive elements and held by its bearings, has at every speed a complete set of independent modes with purely imaginary eigenvalues; hence its transfer matrix exists at every speed and inverts the dynamic stiffness wherever that is not singular.", "quantifier": "every constructed undamped passive rotor, every speed", "why_tests_cant": "The claim ranges over all rotors and speeds; a test computes a few eigenvalues in floating point.", "anchors": ["ross/rotor_assembly.py:Rotor.A", "ross/rotor_assembly.py:Rotor.transfer_matrix"]}
{"id": "C50", "title": "Time response uses the matrices of the rotor at the current speed", "statement": "For every rotor accepted by the constructor, force history and time array, whatever integrate_system returns by the direct method is a motion from rest satisfying the Newmark relations and, at every later instant and within the tolerance, the equation of motion with the rotor's damping and stiffness at the current speed, the gyroscopic matrix times that speed, the transient stiffness times the derivative of the speed array, the mass matrix at frequency zero and the given force. A passive rotor at constant speed is always integrated to the end and never gains energy between unforced instants.", "quantifier": "all rotors, bearing tables, speed arrays, force histories, time arrays", "why_tests_cant": "The statement ranges over all speed profiles and force histories; tests compare a few rotors with stored numbers.", "anchors": ["ross/rotor_assembly.py: Rotor.integrate_system", "ross/utils.py: newmark, assemble_C_K_matrices"]}
{"id": "C51", "title": "Pseudo-modal time response is the Galerkin projection on the undamped modes", "statement": "When num_modes is given, integrate_system returns a combination of the first num_modes eigenvectors of the rotor with the cross-coupled bearing stiffness removed, whose coefficients satisfy the equation of motion projected on these eigenvectors at every instant within the tolerance.", "quantifier": "all rotors, numbers of modes, force histories and time arrays", "why_tests_cant": "The projection identity concerns all rotors and all histories; tests only compare a few stored responses.", "anchors": ["ross/rotor_assembly.py: Rotor._pseudo_modal, Rotor.integrate_system"]}
{"id": "C52", "title": "Static diagrams are those of equilibrium", "statement": "The shear force reported by run_static at both ends of every shaft element is the net force on the part of the shaft to its left, and the bending moment is the moment of those forces; both vanish at the free ends.", "quantifier": "every accepted rotor with bearings to ground, every node", "why_tests_cant": "The claim ranges over every number of elements and a continuum of real parameters.", "anchors": ["ross/rotor_assembly.py:Rotor.run_static"]}
{"id": "C53", "title": "Unbalance in fault runs is the rotor's unbalance", "statement": "In a fault run the rotor turns at the given constant speed, every disk carries a force of size m*speed^2 for the unbalance given for it, nothing acts elsewhere, and the force is the one that run_unbalance_response applies for the same magnitude, phase and speed.", "quantifier": "every rotor, speed, time, unbalance magnitude and phase", "why_tests_cant": "The claim compares two analyses over a continuum of times and parameters; a test compares finitely many samples.", "anchors": ["ross/faults/rubbing.py:Rubbing.run", "ross/faults/misalignment.py:MisalignmentFlex.run", "ross/faults/crack.py:Crack.run", "ross/rotor_assembly.py:Rotor.run_unbalance_response"]}
{"id": "C54", "title": "Crack force law", "statement": "The force of a crack acts on the two nodes of the cracked element only and is self-equilibrated; a crack of depth zero exerts no force; an open crack is softer than the whole shaft; the crack is closed and open at opposite angular positions; depths over one half of the diameter and unknown crack types are refused.", "quantifier": "every element, depth, table, angular position and displacement", "why_tests_cant": "The claim ranges over a continuum of geometries, depths and displacements; a test evaluates finitely many.", "anchors": ["ross/faults/crack.py:Crack.run", "ross/faults/crack.py:Crack._crack", "ross/faults/crack.py:Crack._mayes", "ross/faults/crack.py:Crack._gasch", "ross/faults/crack.py:Crack._get_coefs"]}
{"id": "C55", "title": "Fault runs integrate the rotor's equations of motion", "statement": "A fault run starts at rest and advances by the integrator's step; what is integrated is M x'' + (C + speed G) x' + K x = unbalance + fault force, projected on the first twelve modes, which are mass-orthonormal; for passive 6-dof rotors the run exists for every interval and step.", "quantifier": "every rotor, interval, step, fault force and number of steps", "why_tests_cant": "The claim ranges over all rotors, state histories and numbers of steps; a test replays a few.", "anchors": ["ross/faults/rubbing.py:Rubbing.run", "ross/faults/rubbing.py:Rubbing._equation_of_movement", "ross/faults/misalignment.py:MisalignmentFlex._equation_of_movement", "ross/faults/crack.py:Crack._equation_of_movement", "ross/faults/integrate_solver.py:Integrator"]}
{"id": "C56", "title": "Orbits report the axes of the ellipse the node describes", "statement": "The major and minor axis of an orbit are the largest and smallest distance the vibrating node reaches; kappa is, up to sign, their ratio; the sampled points are positions of the node, and the marked point is the sampled point that is farthest away, with its direction.", "quantifier": "every pair of complex amplitudes of a node", "why_tests_cant": "The claim ranges over all complex amplitudes and shapes; a test evaluates a few.", "anchors": ["ross/results.py:Orbit.__init__"]}
{"id": "C57", "title": "The whirl of an orbit is the sense in which the node runs", "statement": "The sign of kappa and the word Forward/Backward tell whether the node runs counterclockwise or clockwise around its rest position.", "quantifier": "every pair of complex amplitudes of a node", "why_tests_cant": "The claim ranges over all complex amplitudes and shapes; a test evaluates a few.", "anchors": ["ross/results.py:Orbit.__init__"]}
{"id": "C58", "title": "Orbits do not depend on scale, time origin or orientation of the axes", "statement": "Multiplying both amplitudes by a complex number scales the axes and leaves kappa and whirl; turning the coordinate axes changes nothing; running the motion backwards only changes the sign of kappa.", "quantifier": "every pair of amplitudes, factor and angle", "why_tests_cant": "The claim ranges over all complex amplitudes and shapes; a test evaluates a few.", "anchors": ["ross/results.py:Orbit.__init__"]}
{"id": "C59", "title": "The amplitude at an angle is what a probe at this angle measures", "statement": "For a probe angle, the amplitude and phase of an orbit are those of the displacement projected on the direction of the probe.", "quantifier": "every pair of amplitudes and every angle", "why_tests_cant": "The claim ranges over all complex amplitudes and shapes; a test evaluates a few.", "anchors": ["ross/results.py:Orbit.calculate_amplitude"]}
{"id": "C60", "title": "Mode shapes are normalized eigenvectors, and their type is a property of the mode", "statement": "A drawn mode shape is the eigenvector divided by its largest displacement in x or y, so it does not depend on the arbitrary factor of the eigenvector; modes are called lateral, axial or torsional by their components.", "quantifier": "every eigenvector, number of nodes and degrees of freedom per node", "why_tests_cant": "The claim ranges over all complex amplitudes and shapes; a test evaluates a few.", "anchors": ["ross/results.py:Shape.__init__", "ross/results.py:Shape._classify", "ross/results.py:ModalResults.__init__"]}
{"id": "C61", "title": "The line drawn for a shape interpolates the nodes", "statement": "The line passes through the nodes, has no gaps, and a shaft bent to a line of degree three is drawn as it is, with the right major axis everywhere.", "quantifier": "every shaft, vector and point of the line", "why_tests_cant": "The claim ranges over all complex amplitudes and shapes; a test evaluates a few.", "anchors": ["ross/results.py:Shape._calculate"]}
{"id": "C62", "title": "Modes are Forward, Backward or Mixed as their nodes run", "statement": "The whirl of a shape and the whirl direction of a mode are Forward when all nodes run counterclockwise, Backward when all run clockwise, else Mixed.", "quantifier": "every mode shape", "why_tests_cant": "The claim ranges over all complex amplitudes and shapes; a test evaluates a few.", "anchors": ["ross/results.py:Shape._calculate_orbits", "ross/results.py:ModalResults.whirl_direction", "ross/results.py:ModalResults.kappa_mode", "ross/results.py:ModalResults.whirl"]}
{"id": "C63", "title": "Time response probes report the motion of their node", "statement": "The column of a radial probe is the displacement of its node projected on the direction of the probe, that of an axial probe is the axial displacement, for nodes of the shaft and for supports; the table has one column per probe and the times; the orbit plotted for a node is its displacement in x and y.", "quantifier": "every rotor that is accepted, node, probe and response", "why_tests_cant": "The claim ranges over all rotors, nodes and responses; a test reads a few nodes of a few rotors.", "anchors": ["ross/results.py:TimeResponseResults.data_time_response", "ross/results.py:TimeResponseResults.plot_2d"]}
{"id": "C64", "title": "Forced response probes report amplitude and phase of their node", "statement": "The columns of magnitude and phase of a radial probe are amplitude and phase, at the angle of the probe, of the orbit described by the complex amplitudes of its node, of displacement, velocity or acceleration as asked for; there is one column per probe; axial probes are skipped.", "quantifier": "every rotor that is accepted, node, probe and forced response", "why_tests_cant": "The claim ranges over all rotors, nodes and responses; a test reads a few nodes of a few rotors.", "anchors": ["ross/results.py:ForcedResponseResults.data_magnitude", "ross/results.py:ForcedResponseResults.data_phase"]}
{"id": "C65", "title": "Major and minor axis responses are the extreme distances", "statement": "The response along the major or minor axis of a node is the largest or smallest distance it reaches, and agrees with its orbit; for a numeric angle it is what a probe at this angle measures.", "quantifier": "every rotor that is accepted, node, angle and forced response", "why_tests_cant": "The claim ranges over all rotors, nodes and responses; a test reads a few nodes of a few rotors.", "anchors": ["ross/results.py:ForcedResponseResults._calculate_major_axis_per_node", "ross/stochastic/st_results.py:ST_ForcedResponseResults._calculate_major_axis_per_node"]}
{"id": "C66", "title": "The bending moment at a node is stiffness times curvature", "statement": "For a shaft that is bent to a line of degree three, the reported bending moment at each node is -E I times the curvature there.", "quantifier": "every rotor that is accepted and every deflected line of degree at most three", "why_tests_cant": "The claim ranges over all rotors, nodes and responses; a test reads a few nodes of a few rotors.", "anchors": ["ross/results.py:ForcedResponseResults._calculate_bending_moment"]}
{"id": "C67", "title": "Elements drawn from a random element are built from the samples", "statement": "A random shaft element, material, disk, point mass or bearing with N samples of some of its parameters gives N elements; the i-th is the element built from the i-th samples of the random parameters and the given values of the others, with the usual defaults for parameters left out.", "quantifier": "every choice of random parameters, number of samples and values", "why_tests_cant": "The claim ranges over all samples and choices of random parameters; a test draws a few elements from a few samples.", "anchors": ["ross/stochastic/st_shaft_element.py:ST_ShaftElement", "ross/stochastic/st_disk_element.py:ST_DiskElement", "ross/stochastic/st_materials.py:ST_Material", "ross/stochastic/st_point_mass.py:ST_PointMass", "ross/stochastic/st_bearing_seal_element.py:ST_BearingElement"]}
{"id": "C68", "title": "Random elements are not changed by using them", "statement": "Setting a parameter changes that parameter only and cannot add one; plotting the random parameters leaves the element as it was; the list of random parameters that the caller passes is not changed.", "quantifier": "every random element, parameter and value", "why_tests_cant": "The claim ranges over all samples and choices of random parameters; a test draws a few elements from a few samples.", "anchors": ["ross/stochastic/st_shaft_element.py:ST_ShaftElement.__setitem__", "ross/stochastic/st_shaft_element.py:ST_ShaftElement.plot_random_var", "ross/stochastic/st_shaft_element.py:ST_ShaftElement.__init__"]}
{"id": "C69", "title": "A random rotor consists of the rotors of its samples", "statement": "A random rotor whose random elements have N samples gives N rotors, the i-th built from the given elements and the i-th samples; it is refused when numbers of samples differ or nothing is random; its numbers of degrees of freedom are those of all its rotors and its node positions are their means; the lists passed can be used for another one.", "quantifier": "every list of elements, of which some are random", "why_tests_cant": "The claim ranges over all samples and choices of random parameters; a test draws a few elements from a few samples.", "anchors": ["ross/stochastic/st_rotor_assembly.py:ST_Rotor.__init__", "ross/stochastic/st_rotor_assembly.py:ST_Rotor.__iter__", "ross/stochastic/st_rotor_assembly.py:ST_Rotor._get_rotor_args"]}
{"id": "C70", "title": "Analyses of a random rotor use the samples of each rotor", "statement": "Every analysis is run once for each sample with the rotor, the force, and the unbalances of this sample and with the options given, and the results are stored in the order of the samples; missing samples are not filled in.", "quantifier": "every random rotor, analysis, force, unbalance and option", "why_tests_cant": "The claim ranges over all samples and choices of random parameters; a test draws a few elements from a few samples.", "anchors": ["ross/stochastic/st_rotor_assembly.py:ST_Rotor.run_campbell", "ross/stochastic/st_rotor_assembly.py:ST_Rotor.run_time_response", "ross/stochastic/st_rotor_assembly.py:ST_Rotor.run_unbalance_response"]}
{"id": "C71", "title": "Random disks from geometry", "statement": "A random disk from random dimensions and materials gives the disks from the samples of dimensions and materials, each as if built from the geometry; materials can be given as a list.", "quantifier": "every choice of random dimensions, number of samples and values", "why_tests_cant": "The claim ranges over all samples and choices of random parameters; a test draws a few elements from a few samples.", "anchors": ["ross/stochastic/st_disk_element.py:ST_DiskElement.from_geometry"]}
{"id": "C72", "title": "Percentiles, confidence intervals and means of samples", "statement": "Percentiles grow with the percentage, from the smallest to the largest sample, and interpolate between neighbouring samples; a confidence interval of p percent contains p percent of the samples up to one, grows with p and is refused above 100; the mean is between the smallest and the largest sample.", "quantifier": "every list of samples and every percentage", "why_tests_cant": "The claim ranges over all lists of samples and all percentages.", "anchors": ["ross/stochastic/st_results.py:ST_CampbellResults._plot_nat_freq", "ross/stochastic/st_results.py:ST_FrequencyResponseResults._plot_magnitude", "ross/stochastic/st_results.py:ST_TimeResponseResults._plot1d"]}
{"id": "C73", "title": "Frequency response of a random rotor between two degrees of freedom", "statement": "The frequency response returned for inp and out is the response at out to a unit force at inp.", "quantifier": "every random rotor, pair of degrees of freedom and frequency", "why_tests_cant": "The two readings agree for symmetric systems, which are what a test is likely to use.", "anchors": ["ross/stochastic/st_rotor_assembly.py:ST_Rotor.run_freq_response"]}
{"id": "C74", "title": "The rotor surface of a fluid-film bearing is its circle", "statement": "The points of the rotor surface in the grid lie on the circle with the radius of the rotor around its centre, each in the direction of its angle; the angles go once around in equal steps, and in a cylindrical bearing they start at the largest gap.", "quantifier": "every radius, eccentricity smaller than the rotor radius, attitude angle, grid and direction", "why_tests_cant": "The claim ranges over all real geometries and angles; a test compares a few points with stored numbers.", "anchors": ["ross/fluid_flow/fluid_flow_geometry.py:internal_radius_function", "ross/fluid_flow/fluid_flow.py:FluidFlow.geometry_description"]}
{"id": "C75", "title": "The stator surface of a fluid-film bearing has the shape asked for", "statement": "A cylindrical stator is a circle; an elliptical one consists of two arcs of the radius of the stator moved towards each other by preload times clearance; wear of a given depth and place widens the stator there by at most this depth and nowhere narrows it.", "quantifier": "every radius, clearance, preload in [0, 1], wear depth, displacement and direction", "why_tests_cant": "The claim ranges over all real geometries and angles; a test compares a few points with stored numbers.", "anchors": ["ross/fluid_flow/fluid_flow_geometry.py:external_radius_function"]}
{"id": "C76", "title": "Moving the rotor of a fluid-film bearing", "statement": "After a move the rotor is at the new position, with the eccentricity, ratio and attitude angle of this position, and moving back restores the bearing.", "quantifier": "every bearing and every step", "why_tests_cant": "The claim ranges over all positions of the rotor, in all quadrants.", "anchors": ["ross/fluid_flow/fluid_flow_geometry.py:move_rotor_center", "ross/fluid_flow/fluid_flow_geometry.py:move_rotor_center_abs"]}
{"id": "C77", "title": "What a fluid-film bearing is built from", "statement": "A constructed bearing has the data given; its type is the one given or follows from length over diameter with the documented limits; position, eccentricity, attitude angle, ratio and load agree with each other and with what was given; missing data are refused.", "quantifier": "every combination of arguments", "why_tests_cant": "The claim ranges over all combinations of given and missing arguments and their values.", "anchors": ["ross/fluid_flow/fluid_flow.py:FluidFlow.__init__", "ross/fluid_flow/fluid_flow_coefficients.py:find_equilibrium_position"]}
{"id": "C78", "title": "Load and eccentricity of a short bearing determine each other", "statement": "For every positive load there is exactly one eccentricity ratio between 0 and 1, and it is the one calculated; the load of a ratio grows with the ratio; the Sommerfeld numbers are related by the ratio of diameter and length.", "quantifier": "every positive radius, speed, viscosity, length, clearance and load", "why_tests_cant": "The solution is the root of a polynomial of degree four that has others; uniqueness in (0, 1) for all loads needs a proof.", "anchors": ["ross/fluid_flow/fluid_flow_geometry.py:calculate_eccentricity_ratio", "ross/fluid_flow/fluid_flow_geometry.py:calculate_rotor_load", "ross/fluid_flow/fluid_flow_geometry.py:modified_sommerfeld_number", "ross/fluid_flow/fluid_flow_geometry.py:sommerfeld_number"]}
{"id": "C79", "title": "The film force of a short bearing balances its load", "statement": "The components of the film force along x and y are the rotated radial and tangential force; at the calculated attitude angle the force of a short bearing is vertical and as large as the load.", "quantifier": "every short bearing and every eccentricity ratio in (0, 1)", "why_tests_cant": "The claim ranges over all geometries, including those with a large clearance, where the two formulas differ visibly.", "anchors": ["ross/fluid_flow/fluid_flow_coefficients.py:calculate_oil_film_force", "ross/fluid_flow/fluid_flow_geometry.py:calculate_attitude_angle", "ross/fluid_flow/fluid_flow_geometry.py:calculate_rotor_load"]}
{"id": "C80", "title": "The coefficients of the film equation are those of the flow between the surfaces", "statement": "The coefficients that weigh the pressure differences around and along the axis are the amounts of viscous flow through the gap that a unit pressure gradient drives, and both have the sign that makes flow go from high to low pressure; the right-hand side is what the turning and the moving rotor bring; directions other than the documented ones are refused.", "quantifier": "every geometry with a positive gap, every speed and every disturbance", "why_tests_cant": "The flow is the solution of differential equations; agreement with the closed formulas for all radii needs a proof.", "anchors": ["ross/fluid_flow/fluid_flow.py:FluidFlow.calculate_coefficients"]}
{"id": "C81", "title": "The numerical pressure of a fluid-film bearing is the balanced one", "statement": "The numerical pressure has the given values at the ends, conserves mass at every inner point of the grid, and is the only one to do so; whatever solver of linear systems is used finds it.", "quantifier": "every grid, geometry, speed and boundary pressure", "why_tests_cant": "The number of unknowns is arbitrary; existence and uniqueness for all grids is a statement about all matrices of a family.", "anchors": ["ross/fluid_flow/fluid_flow.py:FluidFlow.mounting_matrix", "ross/fluid_flow/fluid_flow.py:FluidFlow.resolves_matrix", "ross/fluid_flow/fluid_flow.py:FluidFlow.calculate_pressure_matrix_numerical"]}
{"id": "C82", "title": "The analytical pressure solves the equation of short or long bearings", "statement": "The analytical pressure of a cylindrical bearing is, at the points of the grid, the solution of the equation of a short or a long bearing, as asked for, with 0 in place of negative values; other bearings are refused; the thickness of the film in these equations is the gap up to the square of the eccentricity over the radius.", "quantifier": "every bearing, both methods for short bearings, and every point of the grid", "why_tests_cant": "The claim compares with solutions of differential equations for all real parameters.", "anchors": ["ross/fluid_flow/fluid_flow.py:FluidFlow.calculate_pressure_matrix_analytical"]}
{"id": "C83", "title": "The film force of a fluid-film bearing is that of its pressure", "statement": "The force that is calculated for a short or long bearing is the integral of the positive part of the analytical pressure over the surface of the rotor, and the numerical force is the sum of the numerical pressure over the grid with the weights of the rule of integration, against the direction from the centre of the rotor to the stator; the type of force asked for is used.", "quantifier": "every bearing, eccentricity, speed, and rule of integration", "why_tests_cant": "Integrals for all real parameters against closed formulas, and sums over grids of any size.", "anchors": ["ross/fluid_flow/fluid_flow_coefficients.py:calculate_oil_film_force"]}
{"id": "C84", "title": "Stiffness and damping matrices of a short bearing are derivatives of its force", "statement": "The closed formulas for the stiffness and the damping of a short bearing are minus the derivatives of the film force with respect to the position and to the velocity of the rotor at its position of equilibrium.", "quantifier": "every short bearing, eccentricity ratio between 0 and 1, and every direction", "why_tests_cant": "Derivatives in all directions at all real parameters.", "anchors": ["ross/fluid_flow/fluid_flow_coefficients.py:calculate_short_stiffness_matrix", "ross/fluid_flow/fluid_flow_coefficients.py:calculate_short_damping_matrix"]}
{"id": "C85", "title": "Stiffness and damping from the numerical pressure fit the measured forces", "statement": "The coefficients from the numerical pressure come from film forces at six times of an oscillation along x and one along y; they are those of the best linear fit, and exactly those of the film when its force is linear in displacement and velocity; the calculation succeeds for a cylindrical bearing with room for the oscillation, and leaves the rotor where it was.", "quantifier": "every bearing, solver and rule of integration", "why_tests_cant": "The forces are results of solving linear systems of any size, and the best fit is a claim about all coefficients.", "anchors": ["ross/fluid_flow/fluid_flow_coefficients.py:calculate_stiffness_and_damping_coefficients", "ross/fluid_flow/fluid_flow_geometry.py:move_rotor_center"]}
{"id": "C86", "title": "Critical speeds are speeds at which a natural frequency equals the speed", "statement": "Each critical speed is where the line through two points of the curve of a damped (or undamped) frequency against speed meets the line of synchronous speed, near the last of them; for frequencies that vary linearly it is exactly the speed equal to its frequency; the modes reported with it are those at that speed. With a range of speeds, exactly the modes whose speeds lie within the range are reported.", "quantifier": "every rotor, number of modes, tolerance and range, and every run of the iteration", "why_tests_cant": "The iteration runs on eigenvalues of matrices of any size, along curves of any shape.", "anchors": ["ross/rotor_assembly.py:Rotor.run_critical_speed"]}
{"id": "C87", "title": "A Campbell diagram holds, for each speed, the modes of the rotor at that speed", "statement": "Row i of the diagram describes the modes of the modal analysis at speed i: frequencies, logarithmic decrements, damping ratios and directions of whirl belong to the same modes, in the order of the damped or of the undamped frequencies; the modal results are stored under their speeds; rows do not depend on the other speeds.", "quantifier": "every rotor, list of speeds, and number and type of frequencies", "why_tests_cant": "For all lists of speeds, with repetitions, and all numbers of modes.", "anchors": ["ross/rotor_assembly.py:Rotor.run_campbell"]}
{"id": "C88", "title": "An undamped critical speed map shows the rotor on springs", "statement": "Point i of a curve of the map is a natural frequency at rest of the same shaft and disks on springs of stiffness i; stiffnesses are evenly spaced on a logarithmic scale; the critical points are exactly the crossings with the curves of stiffness of the first bearing, each with the modes there; every rotor has a map.", "quantifier": "every rotor, range, number of modes and of points", "why_tests_cant": "For all bearings, ranges and numbers of points, with curves of any shape.", "anchors": ["ross/rotor_assembly.py:Rotor.run_ucs", "ross/utils.py:intersection"]}
{"id": "C89", "title": "A level 1 analysis shows the damping of the first forward mode against cross-coupled stiffness", "statement": "Decrement i is that of the first mode that is not backward, at the rated speed, of the rotor with value i of cross-coupled stiffness added at a node; the values are spread over the range that is given, or else over one around the stiffness of the bearing.", "quantifier": "every rotor, node, range and number of values", "why_tests_cant": "For all rotors and values; the mode is chosen by the whirl of all nodes.", "anchors": ["ross/rotor_assembly.py:Rotor.run_level1"]}
{"id": "C90", "title": "The film of a thermohydrodynamic bearing is the gap of its geometry", "statement": "The thickness of the film at every angle is, to first order, the gap between the journal and a circular bore, a lobe turned towards its pivot, or an ellipse, with the clearances that the preload stands for; inside the bore it is positive everywhere; other geometries are refused.", "quantifier": "every position of the journal, angle, pad, preload and geometry", "why_tests_cant": "Over a continuum of positions and angles.", "anchors": ["ross/fluid_flow/cylindrical.py:THDCylindrical._flooded", "ross/fluid_flow/cylindrical.py:THDCylindrical.__init__"]}
{"id": "C91", "title": "The viscosity is that of the lubricant", "statement": "The viscosity used at a temperature passes through the two values listed for the lubricant, is positive, and decreases with the temperature.", "quantifier": "every lubricant of the table and temperature", "why_tests_cant": "Over a continuum of temperatures.", "anchors": ["ross/fluid_flow/cylindrical.py:THDCylindrical._interpol", "ross/fluid_flow/lubricants.py:lubricant_dict"]}
{"id": "C92", "title": "The pressure in a pad of a flooded bearing conserves mass", "statement": "The pressure reported for a pad is the one for which every cell conserves mass, with zero for negative values; it grows when the journal approaches faster, is symmetric with the viscosity, and vanishes for a centred journal at rest.", "quantifier": "every bearing, pad, position, velocity, viscosity field and number of cells", "why_tests_cant": "For all numbers of cells and all viscosity fields; the solution is that of a linear system of any size.", "anchors": ["ross/fluid_flow/cylindrical.py:THDCylindrical._flooded", "ross/fluid_flow/cylindrical.py:THDCylindrical._forces"]}
{"id": "C93", "title": "The temperature in a pad conserves energy", "statement": "The temperature of a pass is the one for which every cell conserves energy, with the heat of viscous dissipation; it is not below that of the entering oil; the viscosity of the next pass is that at this temperature; turbulence sets in with the Reynolds number of the film.", "quantifier": "every bearing, pad, position, pressure and viscosity field, number of cells", "why_tests_cant": "For all fields and numbers of cells.", "anchors": ["ross/fluid_flow/cylindrical.py:THDCylindrical._forces"]}
{"id": "C94", "title": "The oil that enters a pad is a mixture of fresh oil and of oil that leaves the pad before", "statement": "The entry temperature of a pad is the mean of the supply temperature and of that at the end of the pad before it, weighted with the groove factor, given as a number or a list.", "quantifier": "every number of pads, groove factors and temperatures", "why_tests_cant": "For all numbers of pads.", "anchors": ["ross/fluid_flow/cylindrical.py:THDCylindrical._forces"]}
{"id": "C95", "title": "The forces of a thermohydrodynamic bearing are the resultant of its pressures", "statement": "The forces are the resultant of the converged pressures on the surface of the pads, push the journal away from the pads under pressure, and vanish for a centred journal at rest; they are calculated for every bearing.", "quantifier": "every bearing, position and velocity, number of pads and cells, and every run of the iteration", "why_tests_cant": "The iteration may take any number of passes over fields of any size.", "anchors": ["ross/fluid_flow/cylindrical.py:THDCylindrical._forces"]}
{"id": "C96", "title": "The coefficients are calculated where the film carries the load", "statement": "The position of equilibrium is one at which the film force balances the load, or at least not worse than the start; it depends on the bearing and the speed, not on other speeds in the list.", "quantifier": "every bearing, load, list of speeds and initial guess", "why_tests_cant": "For all loads and lists of speeds.", "anchors": ["ross/fluid_flow/cylindrical.py:THDCylindrical.run", "ross/fluid_flow/cylindrical.py:THDCylindrical._score", "ross/fluid_flow/cylindrical.py:THDCylindrical.__init__"]}
{"id": "C97", "title": "Stiffness and damping of a thermohydrodynamic bearing are the derivatives of its force", "statement": "By the perturbation method, each coefficient is what the film resists to a small displacement or velocity from the equilibrium, per unit of it.", "quantifier": "every bearing and position of equilibrium, with any forces", "why_tests_cant": "For all force fields.", "anchors": ["ross/fluid_flow/cylindrical.py:THDCylindrical._pertubation_method", "ross/fluid_flow/cylindrical.py:THDCylindrical.sommerfeld", "ross/fluid_flow/cylindrical.py:THDCylindrical.coefficients"]}
{"id": "C98", "title": "A thermohydrodynamic bearing has the coefficients that were calculated, at the speeds they were calculated for", "statement": "The bearing element has, at each speed of the list, the calculated stiffness and damping in their places; arguments are refused only for what they are.", "quantifier": "every list of speeds and calculated coefficients", "why_tests_cant": "For all lists of speeds and coefficients.", "anchors": ["ross/fluid_flow/cylindrical.py:THDCylindrical.__init__", "ross/bearing_seal_element.py:BearingElement"]}
{"id": "C99", "title": "The Lund method gives the derivatives of the force of the film", "statement": "With the Lund method, the pressures for small whirls of the journal are the derivatives of the pressure of the film for displacements and velocities of the journal, up to the tolerance, and the stiffness and damping are what the force of the film resists to them; the sweeps end; any injection pressure, or none, may be given.", "quantifier": "every bearing, pad, position and velocity of the journal, viscosity field, number of cells and tolerance", "why_tests_cant": "The sweeps may be any number over fields of any size, and derivatives are limits.", "anchors": ["ross/fluid_flow/cylindrical.py:THDCylindrical._lund_method", "ross/fluid_flow/cylindrical.py:THDCylindrical.coefficients"]}
{"id": "C100", "title": "The film of a starved pad conserves mass", "statement": "In a starved bearing the pressure of a pad is nowhere negative, cells under pressure are full, no cell is filled to less than nothing or more than the whole, in every cell as much oil comes in as goes out, up to the tolerance, and with a full groove and a film that takes less than it is given everywhere the pressure is that of the flooded bearing; the sweeps end.", "quantifier": "every bearing, pad, position and velocity of the journal, viscosity field, filling of the groove, injection pressure, number of cells and tolerance", "why_tests_cant": "The sweeps may be any number, over fields of any size; conservation must hold in every cell.", "anchors": ["ross/fluid_flow/cylindrical.py:THDCylindrical._starvation"]}
{"id": "C101", "title": "The oil that is fed to a starved bearing is divided among the pads and mixed", "statement": "The shares of the pads in the oil that is fed add up to it; the oil that enters a pad has the heat of what is fed and of what comes from the pad before; a groove is filled by what comes to it and never to more than the whole; the reported force is that of the pressures of the sweeps with these fillings; a starved bearing can be calculated with default arguments.", "quantifier": "every bearing, number of pads, flow, temperature, position of the journal and solver", "why_tests_cant": "The loops over the fillings, temperatures and mixing may run any number of times.", "anchors": ["ross/fluid_flow/cylindrical.py:THDCylindrical._forces", "ross/fluid_flow/cylindrical.py:THDCylindrical._starvation"]}
{"id": "C102", "title": "Elements that compare equal are interchangeable", "statement": "Every element is == to itself; elements that are == are of the same class, have the same data and so the same matrices; == does not depend on the order and is transitive; elements that are == have the same hash; comparing elements does not raise.", "quantifier": "every pair of shaft elements, disks, bearings, seals and point masses of either number of degrees of freedom, and every pair of ball, roller, fluid-film and cylindrical bearings, with any data", "why_tests_cant": "Equality is a relation on pairs of elements with any data; only a proof covers the pairs near the tolerance.", "anchors": ["ross/shaft_element.py:ShaftElement.__eq__", "ross/disk_element.py:DiskElement.__eq__", "ross/bearing_seal_element.py:BearingElement.__eq__", "ross/bearing_seal_element.py:BearingElement6DoF.__eq__", "ross/point_mass.py:PointMass.__eq__", "ross/materials.py:Material.__eq__"]}
{"id": "C103", "title": "The spectra of faulty rotors show the tones of the response", "statement": "plot_dfft shows for each probe the spectrum of the last third of the motion of its node in its direction: the frequencies are the multiples of the inverse of the duration, a tone of the response appears at its frequency with its amplitude, nothing appears elsewhere, the mean value appears at zero, the energy is that of the signal, and a range of frequencies keeps the points that are in it.", "quantifier": "every response, time step, number of samples, probe on the shaft or a support, frequency range and superposition of tones whose periods divide the duration", "why_tests_cant": "The amplitudes are sums over any number of samples of signals with any amplitudes and phases.", "anchors": ["ross/faults/abs_fault.py:Fault.plot_dfft", "ross/faults/abs_fault.py:Fault._dfft"]}
{"id": "C104", "title": "A rotor made of plain elements is the same rotor", "statement": "Rotor.to_ross_only returns a rotor with the same shaft, disks, point masses, limits of speed and tag, whose bearings and seals have the same nodes, coefficients, speeds, tags and colours, and whose mass, stiffness, damping and gyroscopic matrices are the same at every speed.", "quantifier": "every rotor that the constructor returns, with any number of elements, 4 or 6 degrees of freedom per node, and every speed", "why_tests_cant": "The rotor may have any elements; equality of the matrices at every speed is needed.", "anchors": ["ross/rotor_assembly.py:Rotor.to_ross_only"]}
{"id": "C105", "title": "Results survive save and load", "statement": "Saving the results of an analysis to a file and loading them gives results of the same class with the same values, saving them again works, and saving leaves other files and the other results in the file as they were.", "quantifier": "every class of results, every value of every attribute, every state of the file before", "why_tests_cant": "The attributes are arbitrary arrays, and the file may have any history.", "anchors": ["ross/results.py:Results.save", "ross/results.py:Results.load", "ross/results.py:Results.read_toml_data", "ross/results.py:CampbellResults.save", "ross/results.py:CampbellResults.load"]}
{"id": "C106", "title": "The deflected shape at a speed is the motion at that speed", "statement": "Plotting the deflected shape or the bending moments of a forced response at a computed speed shows the response at that speed in the requested units, with markers for the unbalances; other speeds are refused.", "quantifier": "every rotor, every list of speeds, every response, every unit, every set of unbalances", "why_tests_cant": "The speeds, the responses and the units are arbitrary; tests plot one speed in one unit.", "anchors": ["ross/results.py:ForcedResponseResults.plot_deflected_shape_2d", "ross/results.py:ForcedResponseResults.plot_deflected_shape_3d", "ross/results.py:ForcedResponseResults.plot_bending_moment"]}
{"id": "C107", "title": "Plots of frequency responses show the motion at the output under a force at the input", "statement": "For an input and an output degree of freedom, the magnitude, phase and polar plots of a frequency response show amplitude and phase of the motion at the output under a unit force at the input, in the requested units, with phases in the first turn, and the curve is named after these degrees of freedom.", "quantifier": "every rotor, every speed, every pair of degrees of freedom, every unit of amplitude and angle", "why_tests_cant": "The transfer function of a rotor differs for every rotor, speed and pair of degrees of freedom; tests compare against stored arrays.", "anchors": ["ross/results.py:FrequencyResponseResults.plot_magnitude", "ross/results.py:FrequencyResponseResults.plot_phase", "ross/results.py:FrequencyResponseResults.plot_polar_bode"]}
{"id": "C108", "title": "A Campbell diagram shows every computed frequency once, with its kind, and exactly the critical speeds", "statement": "A Campbell diagram draws each computed frequency at its speed exactly once, with the glyph of its whirl or of its type and coloured by its own damping, exactly if it lies within the ranges asked for; critical speeds are marked exactly where a curve crosses the line of a harmonic within those ranges; and clicking on a point shows the mode drawn there.", "quantifier": "every diagram of any number of speeds and frequencies, all harmonics, ranges, damping parameters and units", "why_tests_cant": "Which glyph, colour and marker a point gets depends on all other points of its curve and on the ranges; tests look at a few stored traces.", "anchors": ["ross/results.py:CampbellResults.plot", "ross/results.py:CampbellResults._plot_with_mode_shape", "ross/utils.py:intersection"]}
{"id": "C109", "title": "Elements read from a spreadsheet have the values of their rows", "statement": "Reading shafts, disks or a bearing from a spreadsheet makes one element per row of data (one bearing with one coefficient per row), in order, each attribute being the converted cell of the column called so or the documented default; each shaft has the material whose number its row gives; and the dictionary made for a toml file makes the same bearing again.", "quantifier": "every sheet, with any number of rows, columns, materials and units, all tags, scale factors and colors", "why_tests_cant": "The columns are found by their names, rows by their content, and units by texts anywhere in the sheet; tests read three stored files.", "anchors": ["ross/shaft_element.py:ShaftElement.from_table", "ross/disk_element.py:DiskElement.from_table", "ross/bearing_seal_element.py:BearingElement.from_table", "ross/bearing_seal_element.py:BearingElement.table_to_toml"]}
{"id": "C110", "title": "The tables of a rotor place every element where it is", "statement": "In the table of elements of a rotor every disk has the axial position of its node, every bearing the position of the node it stands on or, on a support, of a bearing it is connected to, and every point mass that of a bearing on its node. The summary shows these, the attributes of every element, the mass, length, centre of gravity and inertia of the rotor, and next to every bearing the static reaction on its node; it can be asked for as often as wanted.", "quantifier": "every rotor that can be constructed with a shaft without gaps, any number of elements, layers, supports and links, in any order; any number of calls of summary", "why_tests_cant": "Bearings are placed by a loop over rows in an order left to an unstable sort, through chains of links of any length; tests look at the number of columns of one summary.", "anchors": ["ross/rotor_assembly.py:Rotor.__init__", "ross/rotor_assembly.py:Rotor.summary", "ross/results.py:SummaryResults.plot"]}
{"id": "C111", "title": "The diagrams of the static analysis show its results", "statement": "The free-body diagram of a static analysis shows, at the position of each node with bearings, one arrow with the reaction on it, pointing upwards exactly if the shaft is carried there, and at the position of each disk one arrow downwards with its weight; together with the weight of the shaft they are in equilibrium. The diagrams of the deformation, shear force and bending moment go through the values of the analysis at every node, on both sides of it where the value jumps, in the units asked for.", "quantifier": "every rotor that can be constructed and whose static analysis succeeds, any number of elements, bearings and disks, any units", "why_tests_cant": "The arrows are drawn by loops inside loops over dictionaries filled by node; tests compare the numbers of the analysis and never look at what is drawn.", "anchors": ["ross/results.py:StaticResults.plot_free_body_diagram", "ross/results.py:StaticResults.plot_deformation", "ross/results.py:StaticResults.plot_shearing_force", "ross/results.py:StaticResults.plot_bending_moment"]}
{"id": "C112", "title": "Coefficients are not extrapolated without a warning", "statement": "An analysis over an array of speeds warns exactly if one of the speeds lies outside the table of frequencies of one of the bearings. If it does not warn, its results do not depend on what the interpolated coefficients are outside the tables.", "quantifier": "every rotor that can be constructed, bearings with and without tables in any order, any speeds, any values of the interpolants outside of the tables", "why_tests_cant": "Whether a result rests on extrapolated coefficients depends on every bearing, every speed and every call of an interpolant inside the assembly; tests check one warning for one rotor.", "anchors": ["ross/rotor_assembly.py:Rotor._check_frequency_array", "ross/rotor_assembly.py:Rotor.run_freq_response", "ross/rotor_assembly.py:Rotor.run_campbell", "ross/rotor_assembly.py:Rotor.run_forced_response"]}
{"id": "C113", "title": "A transfer matrix belongs to the excitation frequency asked for", "statement": "transfer_matrix called with a speed and an excitation frequency returns the inverse of the dynamic stiffness of the rotor at this speed for excitation at this frequency; without a frequency, that for excitation at the speed.", "quantifier": "every rotor, speed and excitation frequency, any solver of the eigenvalue problem that solves it", "why_tests_cant": "The library and its tests only call it with the frequency left out; that the argument acts has to be shown for every frequency and rotor.", "anchors": ["ross/rotor_assembly.py:Rotor.transfer_matrix", "ross/rotor_assembly.py:Rotor._lti", "ross/rotor_assembly.py:Rotor._eigen"]}
{"id": "C114", "title": "Exported matrices describe the rotor", "statement": "The matrices that save_mat writes for a speed are those of the equation of motion of the rotor: the inverse of the dynamic stiffness made of them is the frequency response of the rotor at this speed, and their modes are the modes of the rotor, at the frequency asked for.", "quantifier": "every rotor, speed and frequency", "why_tests_cant": "Users go on to calculate with the exported matrices; that they describe the same system as the analyses is a statement about all of them.", "anchors": ["ross/rotor_assembly.py:Rotor.save_mat"]}
{"id": "C115", "title": "Bearings drawn from random fluid-film data belong to the films of the samples", "statement": "Each bearing drawn from ST_BearingElement.from_fluid_flow has, at each of the given speeds, the coefficients of the fluid film with the data of its sample at that speed, and the speeds as its frequencies; every parameter the documentation lists can be random.", "quantifier": "every number of samples and speeds, every choice of random parameters, whatever the solver and the rule of integration return", "why_tests_cant": "Which sample and which speed a coefficient belongs to is a matter of two loops and eight tables; a test with one random parameter does not tell a swapped table or a parameter taken from another sample.", "anchors": ["ross/stochastic/st_bearing_seal_element.py:ST_BearingElement.from_fluid_flow", "ross/fluid_flow/fluid_flow_coefficients.py:calculate_stiffness_and_damping_coefficients"]}
{"id": "C116", "title": "Figures of random results show the statistics of the samples", "statement": "Every figure of random results shows, at each speed, frequency or instant, the mean of the values of all samples there, one curve for each requested percentile, and one closed band between the limits of each requested confidence interval, in the requested units: natural frequencies and logarithmic decrements, magnitudes and phases, motions seen by probes, orbits in two and three dimensions, and forced responses.", "quantifier": "every number of samples, points and probes, all percentages between 0 and 100, all units, all rotors", "why_tests_cant": "Axes of samples and of points are easily confused, and a statistic over the wrong axis looks plausible; a test of a figure with given numbers does not settle it for all of them.", "anchors": ["ross/stochastic/st_results.py:ST_CampbellResults.plot_nat_freq", "ross/stochastic/st_results.py:ST_CampbellResults.plot_log_dec", "ross/stochastic/st_results.py:ST_FrequencyResponseResults.plot_magnitude", "ross/stochastic/st_results.py:ST_FrequencyResponseResults.plot_phase", "ross/stochastic/st_results.py:ST_FrequencyResponseResults.plot_polar_bode", "ross/stochastic/st_results.py:ST_TimeResponseResults.plot_1d", "ross/stochastic/st_results.py:ST_TimeResponseResults.plot_2d", "ross/stochastic/st_results.py:ST_TimeResponseResults.plot_3d", "ross/stochastic/st_results.py:ST_ForcedResponseResults.plot_magnitude", "ross/stochastic/st_results.py:ST_ForcedResponseResults.plot_phase"]}
{"id": "C117", "title": "Random results survive save and load", "statement": "Saving random results to a file and loading them gives results of the same class with the same values; saving leaves other files and the other results in the file as they were.", "quantifier": "all random results of the four analyses, all numbers of samples, all contents of the file before", "why_tests_cant": "Whether an array comes back as numbers depends on the text of its longest number, so that a test with one response does not tell; files with several results have to be tried in every order.", "anchors": ["ross/stochastic/st_results.py:ST_Results.save", "ross/stochastic/st_results.py:ST_Results.load"]}
{"id": "C118", "title": "Tables and figures of responses show what the probes measured", "statement": "The tables and figures of forced and time responses have one column or curve for each probe that can be read, in the order of the probes and under their names, with what the probe measured in the units that are asked for.", "quantifier": "all rotors, all lists of probes and tags, all responses and units", "why_tests_cant": "Columns are kept under the names of the probes, so that names meet or not depending on the tags of all of them; units, numbers of probes and degrees of freedom combine freely.", "anchors": ["ross/results.py:ForcedResponseResults.data_magnitude", "ross/results.py:ForcedResponseResults.data_phase", "ross/results.py:ForcedResponseResults.plot_polar_bode", "ross/results.py:TimeResponseResults.data_time_response", "ross/results.py:TimeResponseResults.plot_1d", "ross/results.py:TimeResponseResults.plot_3d", "ross/probe.py:Probe.get_label"]}
{"id": "C119", "title": "Figures of mode shapes show the mode that was asked for", "statement": "The figures of a mode draw along the rotor the shape of exactly this mode, as the lines the elements are bent to, with the orbits of the nodes, the tips of the orbits, and a title with the frequency, the damping, the speed and the direction of this mode, in the units that are asked for. For a critical speed of an undamped map the forward mode nearest to it is shown.", "quantifier": "all shapes and rotors, all modes, orientations, nodes, units and kinds of frequency and damping", "why_tests_cant": "Which curve is drawn in which unit, and which mode is selected, depends on combinations of options and of frequencies that examples do not reach; the wrong curve looks like any other.", "anchors": ["ross/results.py:Shape.plot_2d", "ross/results.py:Shape.plot_3d", "ross/results.py:Shape.plot_orbit", "ross/results.py:ModalResults.data_mode", "ross/results.py:ModalResults.plot_mode_2d", "ross/results.py:ModalResults.plot_mode_3d", "ross/results.py:UCSResults.plot_mode_2d", "ross/results.py:UCSResults.plot_mode_3d"]}
{"id": "C120", "title": "Figures of maps and of coefficients show what was computed", "statement": "The figure of an undamped critical speed map shows the rows of the map and the stiffness of the bearing in the units that are asked for, and marks exactly the points where these curves cross; the figure of a stability analysis shows the decrement for each stiffness; the figure of coefficients of a bearing shows each coefficient that is named, over the frequencies of the table, in the unit of its kind, and refuses names of different kinds.", "quantifier": "all rotors, ranges and units, all bearings and lists of names of coefficients", "why_tests_cant": "Marks and curves are converted separately, and the crossings are found before the conversion; that they still meet in every unit, and that no name gets the unit of another kind, are statements about all units and all lists.", "anchors": ["ross/results.py:UCSResults.plot", "ross/results.py:Level1Results.plot", "ross/bearing_seal_element.py:BearingElement.plot"]}
{"id": "C121", "title": "The drawing of a rotor shows the rotor", "statement": "In the drawing of a rotor whose shaft has no gaps every shaft element appears with its own inner and outer diameters from the position of its left node on, and ends where the next one begins; labels are at their nodes; every disk sits on the shaft at its node, with the size given or with one that grows with its mass; bearings, seals and point masses are at the positions where they stand; thick elements are marked, and warned of, exactly when that is asked for; texts show the dimensions and masses of the elements in the units asked for.", "quantifier": "all rotors accepted by the constructor with a shaft without gaps, all units of length, increments of labels and scales of disks", "why_tests_cant": "Positions come from the shaft, from a table that the constructor fills in rounds, and from tags; that they agree for every rotor, with layers, supports and seals, is a statement about all lists of elements.", "anchors": ["ross/rotor_assembly.py:Rotor.plot_rotor", "ross/shaft_element.py:ShaftElement._patch", "ross/disk_element.py:DiskElement._patch", "ross/point_mass.py:PointMass._patch", "ross/point_mass.py:PointMass6DoF._patch", "ross/bearing_seal_element.py:BearingElement._patch"]}
{"id": "C122", "title": "Bearings and point masses are drawn on the shaft, one above the other", "statement": "In the drawing of a rotor the bearings and seals that stand at one node of the shaft are stacked from the lowest node number up: the first one begins at the surface of the shaft at that node, each is as high as the mean diameter of the shaft times its scale factor, and each begins where the one below it ends, so that no two of them overlap. Each icon has a spring and a damper between two bases, the same below the axis, and the ground exactly when the bearing has no link. A point mass is drawn at the lower end of a bearing on its node.", "quantifier": "all rotors accepted by the constructor with a shaft without gaps and elements of positive length, all orders the sorting may give to bearings on one node, all units of length", "why_tests_cant": "Heights depend on all bearings at a place, on links of any depth and on an unstable sort; that stacks never overlap is a statement about all of these.", "anchors": ["ross/rotor_assembly.py:Rotor.__init__", "ross/rotor_assembly.py:Rotor.plot_rotor", "ross/bearing_seal_element.py:BearingElement._patch", "ross/point_mass.py:PointMass._patch", "ross/point_mass.py:PointMass6DoF._patch"]}
{"id": "C123", "title": "The heat map of a global matrix shows the matrix of the rotor and where it comes from", "statement": "visualize_matrix draws the mass, stiffness, damping or gyroscopic matrix of the rotor at the given frequency: each degree of freedom has one row and one column, named by its direction and node, no two alike, and the cell of two of them shows the entry of the matrix. The data of a cell list the entries other than zero of the elements that act on both, and these add up to the value shown.", "quantifier": "all rotors accepted by the constructor, the four matrices and all frequencies", "why_tests_cant": "Rows are reversed twice and names are written by whichever element comes last; that names, entries and contributions agree for every rotor is a statement about all assemblies.", "anchors": ["ross/utils.py:visualize_matrix"]}
{"id": "C124", "title": "The table made of a figure has the curves of the figure", "statement": "get_data_from_figure gives a table with one column for each curve of the figure, named as the curve, in the same order, with its horizontal and vertical values under the titles of the axes. Of the figures of a forced response or of a time response, the column of a probe holds the frequencies or the instants and what the probe measures.", "quantifier": "all figures of named curves; all rotors, responses and lists of probes", "why_tests_cant": "The table is built by two passes over a dictionary keyed by name; that no curve is lost and none overwritten is a statement about all lists of names.", "anchors": ["ross/utils.py:get_data_from_figure"]}
{"id": "C125", "title": "The nodes and degrees of freedom of a coaxial rotor belong to one shaft each", "statement": "CoAxialRotor numbers the elements of its shafts one shaft after the other: a shaft of k elements has k+1 nodes, none of which is a node of another shaft, and names are numbered through. The degrees of freedom of the shaft nodes come first, four each, then those of the supports, two each; each element has the indices of the degrees of freedom it acts on, and two elements share an index exactly when they act on the same node and direction, so that shafts are coupled by bearings only.", "quantifier": "all lists of shafts, disks, bearings and point masses accepted by the constructor, with four degrees of freedom per node", "why_tests_cant": "Numbers of nodes and names are kept by two counters that must stay consistent over any number of shafts of any lengths.", "anchors": ["ross/rotor_assembly.py:CoAxialRotor.__init__"]}
{"id": "C126", "title": "A disk or bearing of a coaxial rotor is listed with the shaft it is on", "statement": "In the tables of a coaxial rotor each disk and bearing has the number of the shaft that has its node, whatever the order of the elements and of the rows of the table.", "quantifier": "all coaxial rotors accepted by the constructor, all orders of rows with equal nodes, all disks and bearings", "why_tests_cant": "The numbers are found by going round the elements until each has taken one from another row with the same node; which rows are seen, and what they hold by then, depends on all other elements.", "anchors": ["ross/rotor_assembly.py:CoAxialRotor.__init__", "ross/results.py:SummaryResults"]}
{"id": "C127", "title": "The figures of the pressure in a film show the pressures that were calculated", "statement": "Each figure of a fluid film is refused when no pressure has been calculated, and otherwise has each calculated pressure, with every value at the place on the axis and at the angle of its point of the grid. A row or column that does not exist is refused. On polar axes a bar shows nothing where the rotor is, and bars in the film differ as the pressures do.", "quantifier": "all films, with any of the two pressures calculated, any numbers of points, all rows and columns asked for", "why_tests_cant": "It is a statement about the cells of matrices of any size and about every choice of what has been calculated before.", "anchors": ["ross/fluid_flow/fluid_flow_graphics.py:plot_pressure_z", "ross/fluid_flow/fluid_flow_graphics.py:plot_shape", "ross/fluid_flow/fluid_flow_graphics.py:plot_pressure_theta", "ross/fluid_flow/fluid_flow_graphics.py:plot_pressure_theta_cylindrical", "ross/fluid_flow/fluid_flow_graphics.py:plot_pressure_surface"]}
{"id": "C128", "title": "The figure of the eccentricity draws the rotor true to shape and inside the stator", "statement": "At scale 1 the figure shows stator, rotor and centres as they are. At any scale from 0 to 1 the stator stays as it is, the rotor and its centre are drawn similar to the real ones, and in a cylindrical bearing the rotor is not drawn across the stator. Other scales are refused.", "quantifier": "all films, all scales and all rows", "why_tests_cant": "The move of the rotor depends on two minima over the grid; that it never leads across the stator needs an inequality for all positions and scales.", "anchors": ["ross/fluid_flow/fluid_flow_graphics.py:plot_eccentricity"]}
{"id": "C129", "title": "The shafts of a coaxial rotor are put where their bearings carry them", "statement": "In a coaxial rotor each shaft element spans its length along the axis and the next one of its shaft begins where it ends. The first shaft begins at 0. A shaft that a bearing links to is placed so that the node linked to is at the node of the first shaft that the bearing is on, and a shaft that no bearing links to begins where the one before it in the list ends. The positions of the nodes are those of the ends of the elements.", "quantifier": "all lists of shafts of any lengths, and all bearings with any links", "why_tests_cant": "The positions are moved while a loop over all elements of all shafts fills them in; that no later move undoes an earlier one needs an invariant for any number of shafts.", "anchors": ["ross/rotor_assembly.py:CoAxialRotor.__init__"]}
{"id": "C130", "title": "The centre of mass of a coaxial rotor is the one of its parts where they are", "statement": "In a coaxial rotor the centre of mass of each shaft element lies in the element, at its own distance from the left end, and the centre of mass of the rotor is the mean of those of shaft elements and disks, weighted with their masses.", "quantifier": "all lists of shafts of any lengths, all disks and all bearings with any links", "why_tests_cant": "The positions of the elements are changed after the centres of mass have been stored, depending on where in a shaft the links are; a test with one arrangement does not show it.", "anchors": ["ross/rotor_assembly.py:CoAxialRotor.__init__"]}
{"id": "C131", "title": "A coaxial rotor has a position for every node, and its length reaches to its furthest end", "statement": "A coaxial rotor of any number of shafts can be constructed, has one position for each node of each shaft, and its length is the furthest end of its shaft elements. Each node has the outer diameter of the element that begins there, the last node of a shaft that of the element that ends there.", "quantifier": "all lists of shafts of any lengths and in any order", "why_tests_cant": "The places of the ends of the shafts in the list depend on the number of shafts before and of elements after them; tests have two shafts.", "anchors": ["ross/rotor_assembly.py:CoAxialRotor.__init__"]}
