{"id": "C01", "title": "Grid index / position round trip", "statement": "For a grid built with positive resolution, converting any integer node index to a position with to_real and back with to_grid returns the same index, and converting any position to its node with to_grid and back with to_real moves it by at most half a cell in each coordinate.", "quantifier": "every positive resolution, every (also negative or out-of-range) integer index, every position", "why_tests_cant": "indices, positions and resolutions range over unbounded sets; rounding boundaries are exactly where sampled tests miss", "anchors": ["src/grid.cpp: grid_properties::to_grid, grid_properties::to_real"]}
{"id": "C02", "title": "Grid construction covers the requested domain and is Courant stable", "statement": "grid_properties(Lx,Ly,res,pml) yields Nx*dx >= Lx_requested > (Nx-1)*dx, domain() runs from node (0,0) to node (Nx-1,Ny-1) exactly, every node lies in domain() and every position in domain() maps to an existing node, and the time step satisfies the 2D Courant bound 2*(dt/dx)^2 <= 1.", "quantifier": "every requested size and every positive resolution, every node, every position of the domain", "why_tests_cant": "a statement about all real sizes and resolutions, including non-dividing ones", "anchors": ["src/grid.cpp: grid_properties::grid_properties", "include/grid.h: grid_properties::domain"]}
{"id": "C03", "title": "clip keeps a box inside the grid", "statement": "grid.clip(box) returns the part of the box that lies inside the grid: every corner of the result is a valid node index and no valid node of the box is lost.", "quantifier": "every integer box, every grid size", "why_tests_cant": "the failing boxes are those that overhang particular edges of non-square grids; tests only ever clip boxes already inside", "anchors": ["src/grid.cpp: grid_properties::clip(const ivolume&), grid_properties::clip(const volume&)"]}
{"id": "C04", "title": "Box faces form a closed, outward-oriented, counter-clockwise contour", "statement": "For a box whose first corner is the lower-left one, the four faces returned by get_surface join end to start into a closed counter-clockwise loop, each has a unit normal that points out of the box, a unit tangent perpendicular to it, and together they have the perimeter of the box.", "quantifier": "every box with positive width and height", "why_tests_cant": "orientation and closure must hold for all real corner coordinates", "anchors": ["include/vec.h: volume_template::get_surface, surface_template::surface_template"]}
{"id": "C05", "title": "Surface construction accepts exactly the axis-aligned segments", "statement": "Constructing a surface throws invalid_argument exactly when both components differ; otherwise its normal is the signed axis perpendicular to the segment and its tangent is the unit vector from a to b. Converting a surface to the grid never throws, and is defined exactly when the rounded segment spans at least one cell; a shorter one divides by integer zero.", "quantifier": "every pair of end points, every sign, every positive resolution", "why_tests_cant": "the degenerate case depends on rounding of both end points at an arbitrary resolution", "anchors": ["include/vec.h: surface_template::surface_template", "src/grid.cpp: grid_properties::to_grid(const surface&)"]}
{"id": "C06", "title": "Objects move rigidly", "statement": "After any sequence of move, rotate, set_position and set_theta calls on a dynamic object, a point is inside the object iff the point carried back by the inverse of the net pose is inside the untransformed geometry; in particular moving an object by dr and testing p+dr gives the same answer as testing p before, and rotating the object about its position rotates its occupied set.", "quantifier": "every geometry, every history of pose calls, every point", "why_tests_cant": "histories of pose changes are unbounded", "anchors": ["src/object.cpp: object::inside", "src/dynamic_object.cpp: move, rotate, set_position, set_theta"]}
{"id": "C07", "title": "Bounding boxes are sound", "statement": "Every point inside an object lies in the box returned by get_bounding_box, for every shape, size, position and rotation angle.", "quantifier": "every block with non-negative dimensions, every ellipse with non-zero radii, every cylinder with non-negative radius, every position, every angle, every point, every history of pose calls", "why_tests_cant": "angles and points are continuous; a bounding box that is too tight only shows at particular angles", "anchors": ["src/geometry/geometry.cpp: geometry::get_bounding_box", "src/geometry/cylinder.cpp: cylinder::get_bounding_box", "src/object.cpp: object::get_bounding_box"]}
{"id": "C08", "title": "A box monitor obtained from an object encloses it", "statement": "The monitor box that get_box_monitor(freq, buffer) places around an object contains every point of the object with at least `buffer` length units of clearance on all four sides.", "quantifier": "every object made of one of the library shapes with admissible sizes (as in C07), every pose and buffer, every point of the object", "why_tests_cant": "continuous quantification over poses and points", "anchors": ["src/object.cpp: object::get_box_monitor", "include/vec.h: volume_template::pad"]}
{"id": "C09", "title": "Material grid: the last added object wins", "statement": "After any history of adding objects, moving dynamic objects and clearing/refreshing materials that ends with update_material_grid, the update coefficients at every node are those of the most recently added object that contains the node, and those of the background medium if no object contains it.", "quantifier": "every history of add / move / rotate / clear_materials / update_material_grid calls, every list of objects that stay inside the two unguarded grid edges, every node", "why_tests_cant": "history dependent; overlaps, rotations and rounding of bounding boxes interact", "anchors": ["src/field2.cpp: update_material_grid, clear_materials, update_object_material_grid, insert_object_helper"]}
{"id": "C10", "title": "Adding an object that overhangs the grid is safe", "statement": "add<object> never accesses a node outside the grid: the part of an object outside the simulated domain is ignored.", "quantifier": "every object pose including those partly outside the domain", "why_tests_cant": "depends on which edge is overhung and on the grid's aspect ratio", "anchors": ["src/field2.cpp: update_object_material_grid", "src/grid.cpp: grid_properties::clip(const ivolume&)"]}
{"id": "C11", "title": "Order of adding disjoint objects is irrelevant", "statement": "If no grid node is inside two of the objects, adding them in any order yields the same update coefficients everywhere.", "quantifier": "every list of pairwise node-disjoint objects and every permutation of it", "why_tests_cant": "factorially many orders", "anchors": ["src/field2.cpp: insert_object, update_object_material_grid"]}
{"id": "C12", "title": "Dispersive response follows the object", "statement": "After update_material_grid the dispersive (polarization) response of a material is active at exactly the nodes inside some object of that material, at their current positions.", "quantifier": "every history of adds, moves, clear_fields and update_material_grid", "why_tests_cant": "ghost response at former positions only appears after particular histories", "anchors": ["src/field2.cpp: update_object_polarization_grid, update_material_grid, clear_fields", "src/materials/debye_polarization.cpp: insert_object, reset", "src/materials/drude_polarization.cpp", "src/materials/lorentz_polarization.cpp"]}
{"id": "C13", "title": "update() computes the Yee equations simultaneously at every interior node", "statement": "The sequential double loops of update() produce at every interior node exactly the finite-difference E and then H equations evaluated on the fields before the loop, leave the border nodes unchanged, and the result does not depend on the order in which the inner loop iterations run (which the ivdep pragmas permit the compiler to change).", "quantifier": "every grid size, every field, every coefficient array, every permutation of the iterations", "why_tests_cant": "vectorisation chooses the schedule; all field values and sizes", "anchors": ["src/field2.cpp: Field2D::update", "src/pml.cpp: pml::update_E, pml::update_H"]}
{"id": "C14", "title": "Time stepping never accesses memory out of bounds", "statement": "For a grid at least two cells wider than the absorbing layer, no call of update(), in any history of API calls with in-domain sources, total-field region and monitors, reads or writes outside any field, coefficient or auxiliary array; and the same guard is necessary.", "quantifier": "every grid size, layer thickness and history of calls", "why_tests_cant": "out-of-bounds reads are silent in release builds and depend on sizes", "anchors": ["src/field2.cpp: Field2D::update", "src/pml.cpp: pml::pml, update_E, update_H, set_scaling_factors", "src/tfsf.cpp: updateD, updateH, pulse"]}
{"id": "C15", "title": "Superposition", "statement": "The simulation is linear: running any number of updates from the sum of two field states with the sum of two source signals gives the sum of the two separate runs, and scaling the initial state and signals scales the result, in exact arithmetic.", "quantifier": "every number of steps, all initial fields (including absorbing-layer and polarization memory), all source signals, all linear materials", "why_tests_cant": "infinitely many states and step counts; tests compare single runs", "anchors": ["src/field2.cpp: Field2D::update", "src/pml.cpp", "src/materials/*_polarization.cpp"]}
{"id": "C16", "title": "Finite propagation speed", "statement": "One update() spreads information by at most one cell: if two simulations of the same structure agree on all fields and memory within distance n+r of a node, then after n updates they agree within distance r of it. This holds for any rounding behaviour of the arithmetic.", "quantifier": "every n, r, node, pair of states", "why_tests_cant": "a relational property over all pairs of runs", "anchors": ["src/field2.cpp: Field2D::update", "src/pml.cpp: update_E, update_H"]}
{"id": "C17", "title": "Silence is preserved", "statement": "A simulation without sources whose fields and memories are zero stays exactly zero after any number of updates.", "quantifier": "every number of steps, every structure of materials", "why_tests_cant": "unbounded number of steps", "anchors": ["src/field2.cpp: Field2D::update"]}
{"id": "C18", "title": "Discrete energy: conserved without loss, never growing with conductivity, hence bounded", "statement": "Away from the absorbing layer the discrete electromagnetic energy sum is exactly conserved by every step in lossless media, does not grow when conductivity is present, is positive definite at the time step the grid chooses, and therefore bounds the field for all time.", "quantifier": "every grid size, every permittivity map >= 1 and conductivity map >= 0, every field, every number of steps", "why_tests_cant": "long-time stability can never be established by finitely many steps", "anchors": ["src/field2.cpp: Field2D::update", "src/materials/simple_material.cpp", "src/grid.cpp: dt"]}
{"id": "C19", "title": "x/y interchange symmetry", "statement": "Exchanging the x and y axes of a simulation (grid, materials, absorbing layer memory and fields) exchanges the axes of the result of every update.", "quantifier": "every simulation state, grid, number of steps", "why_tests_cant": "relational over all states", "anchors": ["src/field2.cpp: Field2D::update", "src/pml.cpp"]}
{"id": "C20", "title": "Mirror symmetry", "statement": "Mirroring a simulation left-right (or bottom-top) mirrors the result of every update: the left and right boundaries behave alike.", "quantifier": "every state and number of steps", "why_tests_cant": "an asymmetry of the boundary only shows after waves return from it, at amplitudes below test tolerances", "anchors": ["src/field2.cpp: Field2D::update H loop bounds", "src/pml.cpp"]}
{"id": "C21", "title": "The absorbing layer leaves the interior untouched and its memory is contractive", "statement": "Inside grid.interior() an update() is exactly the plain Yee update: the absorbing boundary contributes nothing there, ever. In the layer its recursion coefficients satisfy 0 < b <= 1 and -1 < c <= 0 and vanish at the interface, for every layer thickness of at least one cell.", "quantifier": "every thickness, grid, state and number of steps, every node", "why_tests_cant": "holds for all thicknesses and real coefficients", "anchors": ["src/pml.cpp: b_func, c_func, a_func, k_func, sig_func, update_E, update_H", "include/grid.h: interior"]}
{"id": "C22", "title": "Time bookkeeping", "statement": "After any history of calls tStep equals the number of updates since construction or the last clear_fields, and t = tStep*dt.", "quantifier": "every history of API calls", "why_tests_cant": "unbounded histories", "anchors": ["src/field2.cpp: update, clear_fields"]}
{"id": "C23", "title": "Observing does not disturb", "statement": "Monitors, time monitors and field output never change the simulated fields: any two simulations that differ only in their monitors and output calls have the same fields at all times.", "quantifier": "every set of monitors, every history of calls", "why_tests_cant": "relational over all monitor configurations", "anchors": ["src/field2.cpp: update, write_field, remove_monitors", "include/monitors/*.h", "src/time_monitors/*.cpp"]}
{"id": "C24", "title": "Conductive dielectric update is the semi-implicit Ampere law and passive", "statement": "For a simple_material with eps > 0 and conductivity >= 0 the new field produced by the coefficients Ca, Cb is the unique solution of eps*(E'-E)/dt + sigma*(E'+E)/2 = curl H, and |Ca| <= 1.", "quantifier": "every eps, sigma, dt, field and curl value", "why_tests_cant": "real parameters", "anchors": ["src/materials/simple_material.cpp: Ca, Cb"]}
{"id": "C25", "title": "Debye materials obey the discretised Debye relaxation equation", "statement": "In a Debye object each update satisfies eps_inf*(E'-E)/dt + sum_N (J_N'+J_N)/2 = curl H and, for each pole, tau*(J'-J)/dt + (J'+J)/2 = delta_eps*(E'-E)/dt.", "quantifier": "every number of poles, every positive tau, dt, every state and node", "why_tests_cant": "multi-pole materials and all field values", "anchors": ["src/materials/debye.cpp", "src/materials/debye_polarization.cpp: update_J"]}
{"id": "C26", "title": "Drude materials obey the discretised Drude equation", "statement": "In a Drude object each update satisfies eps_inf*(E'-E)/dt + sum_N (J_N'+J_N)/2 = curl H and, for each pole, (J'-J)/dt + gamma*(J'+J)/2 = omega^2*(E'+E)/2.", "quantifier": "every number of poles, every gamma >= 0, omega, dt, every state and node", "why_tests_cant": "multi-pole materials and all field values", "anchors": ["src/materials/drude.cpp", "src/materials/drude_polarization.cpp: update_J"]}
{"id": "C27", "title": "Lorentz materials obey the discretised Lorentz oscillator equation", "statement": "In a Lorentz object each update satisfies eps_inf*(E'-E)/dt + sum_N (J_N'+J_N)/2 = curl H and, for each pole, (J'-2J+J_prev)/dt^2 + 2*gamma*(J'-J_prev)/(2dt) + omega^2*J = delta_eps*omega^2*(E'-E_prev)/(2dt).", "quantifier": "every number of poles, parameters, dt, state and node", "why_tests_cant": "multi-pole materials and all field values", "anchors": ["src/materials/lorentz.cpp: Ca_prev, Ca, Cb", "src/materials/lorentz_polarization.cpp: update_J"]}
{"id": "C28", "title": "Dispersive objects act only where they are", "statement": "Adding a dispersive object changes the update equation only at nodes inside the object; all other nodes evolve by the background equation.", "quantifier": "every dispersive material kind, object and node", "why_tests_cant": "all nodes of all grids", "anchors": ["src/materials/debye_polarization.cpp", "src/materials/drude_polarization.cpp", "src/materials/lorentz_polarization.cpp: update_J"]}
{"id": "C29", "title": "drude_lorentz combines the poles of both materials", "statement": "drude_lorentz(d,l) has the poles of d followed by those of l, keeps the Lorentz pole parameters, and each Drude pole's oscillator strength and damping reproduce the Drude coefficients in the zero-restoring-force limit: delta = omega_d^2*dt^2/(1+gamma_d*dt/2).", "quantifier": "every Drude and Lorentz material and dt", "why_tests_cant": "all pole lists and parameters", "anchors": ["src/materials/creation.cpp: drude_lorentz"]}
{"id": "C30", "title": "Permeability is honoured", "statement": "The magnetic update of a simple_material with permeability mu uses dt/mu, so materials with different mu behave differently.", "quantifier": "every mu, dt", "why_tests_cant": "no test uses mu different from 1", "anchors": ["src/materials/simple_material.cpp: Db", "include/materials/simple_material.h: mu"]}
{"id": "C31", "title": "Point sources drive exactly one node", "statement": "A point source adds its time profile's value at the current time to the chosen field component at the node nearest its position, once per update, and changes nothing else; several sources add up in any order.", "quantifier": "every in-domain position, component, profile, list of sources and permutation of it", "why_tests_cant": "all positions/profiles; permutations of sources", "anchors": ["src/sources/point_source.cpp: pulse", "src/field2.cpp: update"]}
{"id": "C32", "title": "Line sources drive each node of the segment exactly once", "statement": "A line source's loop terminates and adds the profile value to every node from the first end point (inclusive) to the second (exclusive), each exactly once, and to nothing else.", "quantifier": "every in-domain axis-aligned segment spanning at least one cell, either direction", "why_tests_cant": "a termination claim for all lengths and directions", "anchors": ["src/sources/line_source.cpp: pulse", "include/vec.h: surface_template tangent"]}
{"id": "C33", "title": "Total-field/scattered-field source leaks nothing", "statement": "In empty space a TFSF plane wave produces, after any number of updates, exactly the 1D incident wave inside the region and exactly zero field outside it.", "quantifier": "every time profile, every region clear of the absorbing layer, every grid size, every number of updates, every node", "why_tests_cant": "leakage accumulates over time; exactness for all steps needs induction", "anchors": ["src/tfsf.cpp: pulse, updateD, updateH", "src/field2.cpp: update, set_tfsf"]}
{"id": "C34", "title": "The auxiliary 1D line of the TFSF source is indexed safely", "statement": "For every region whose first corner is the lower-left one and that keeps one cell distance from the lower grid edges, none of the TFSF steps accesses its 1D arrays or the 2D fields out of range.", "quantifier": "every region size and position, every step", "why_tests_cant": "index arithmetic for all sizes", "anchors": ["src/tfsf.cpp: tfsf::tfsf, pulse, updateD, updateH"]}
{"id": "C35", "title": "Running DFT equals the Fourier sum of the samples", "statement": "After feeding a DFT samples g_1..g_n at distinct times t_1..t_n its value at every stored frequency f is sum g_m*cos(2*pi*f*t_m) and sum g_m*sin(2*pi*f*t_m); feeding the same time twice in a row counts once.", "quantifier": "every sample sequence, every time sequence, every frequency list", "why_tests_cant": "unbounded histories", "anchors": ["src/dft.cpp: dft<0>::update, dft<1>::update, dft<2>::update", "include/dft.h: add"]}
{"id": "C36", "title": "Every update contributes exactly one sample to every monitor", "statement": "In any history of update, clear_fields and other calls, each update adds exactly one sample to every attached DFT monitor.", "quantifier": "every history of API calls", "why_tests_cant": "the only dropped sample occurs in one particular kind of history", "anchors": ["src/dft.cpp: update (t == tnew test)", "src/field2.cpp: update, clear_fields"]}
{"id": "C37", "title": "Background subtraction is exact", "statement": "Subtracting one monitor from another of the same shape (-=) leaves the Fourier data of the difference of the two recorded signals, so subtracting a monitor from its copy gives zero and flux of the difference is the flux of the scattered field.", "quantifier": "every pair of recorded histories sampled at the same times", "why_tests_cant": "all histories", "anchors": ["include/dft.h: operator-=", "include/monitors/rank_monitor.h: operator-=", "include/monitors/box_monitor.h: operator-="]}
{"id": "C38", "title": "Recorded E and H are taken at the same instant", "statement": "Surface and cylinder monitors record the electric field averaged over the current and previous update, the instant at which the recorded magnetic field lives, at every update and every monitor point.", "quantifier": "every history of updates, every monitor point", "why_tests_cant": "per-point memory must be right for all histories", "anchors": ["include/monitors/surface_monitor.h: update", "include/monitors/cylinder_monitor.h: locate"]}
{"id": "C39", "title": "Field interpolation is bilinear and exact on affine fields", "statement": "interpolate(C,p) returns a convex combination of the four surrounding samples of component C, is exact for every field that is affine in position on the staggered grid, and returns the stored value at sample positions, for every component and resolution.", "quantifier": "every component, position, affine field, resolution", "why_tests_cant": "the staggering offset is only right at one resolution, the one the tests use", "anchors": ["src/field2.cpp: Field2D::interpolate"]}
{"id": "C40", "title": "Volume monitors record every node of the box once", "statement": "A volume monitor whose box is inside the grid has one DFT entry per node of the box and entry (i,j) is the transform of the field at node a+(i,j).", "quantifier": "every in-grid box, component set, history", "why_tests_cant": "all boxes and histories", "anchors": ["include/monitors/volume_monitor.h: set_F, locate, update"]}
{"id": "C41", "title": "Flux is the outward Poynting sum", "statement": "Surface flux equals the sum over the surface of Re(E x H*) dotted with the signed normal times dx; reversing the sign negates it, scaling the fields by c scales it by c^2, the flux of a box is the sum of its outward face fluxes, and it vanishes for spatially uniform fields.", "quantifier": "every field data, surface orientation, frequency list, box", "why_tests_cant": "all data and orientations", "anchors": ["src/monitors/flux.cpp: compute_flux", "include/monitors/surface_monitor.h: flux", "include/monitors/box_monitor.h: flux"]}
{"id": "C42", "title": "Force and torque integrate the Maxwell stress tensor", "statement": "force() equals the sum over the contour of the TM Maxwell stress tensor contracted with the outward normal times dx, torque() the sum of r cross that traction; both vanish for a box in a uniform field, and reversing the orientation negates them.", "quantifier": "every field data, contour orientation, lever arm", "why_tests_cant": "all data and orientations", "anchors": ["src/monitors/force.cpp: compute_force, compute_torque", "include/monitors/surface_monitor.h: partial_force, partial_torque", "include/monitors/box_monitor.h: force, torque"]}
{"id": "C43", "title": "Point monitors record the field at their position", "statement": "A point monitor accumulates the DFT of the field component at its node on every update without undefined behaviour.", "quantifier": "every position, component set, history", "why_tests_cant": "use of a dead stack slot may appear to work", "anchors": ["include/monitors/point_monitor.h: locate, update"]}
{"id": "C44", "title": "every(n) fires exactly every n-th time", "statement": "A time monitor created with every(n), 1 <= n < 2^31, writes at exactly the updates whose ordinal (since attachment) is a multiple of n, and every(0) never writes; the counter never overflows.", "quantifier": "every n, every number of updates", "why_tests_cant": "period and counter behaviour for all n including huge ones", "anchors": ["include/time_monitors/time_monitor.h: every::check_repeat"]}
{"id": "C45", "title": "Time monitor output is the exact sequence of snapshots", "statement": "For every history the dataset of each selected component holds, in order, one entry per write: the values of that component on the monitor's nodes at that moment; fields::E, H and all expand to exactly Ez; Hx,Hy; Ez,Hx,Hy.", "quantifier": "every history of updates and explicit writes, component selection and monitor shape", "why_tests_cant": "unbounded histories", "anchors": ["src/time_monitors/time_monitor.cpp: write, write_if_ready", "src/time_monitors/point_time_monitor.cpp", "src/time_monitors/surface_time_monitor.cpp", "src/time_monitors/volume_time_monitor.cpp"]}
{"id": "C46", "title": "writeE/writeH append snapshots", "statement": "After any history of calls the datasets fields/Ez, fields/Hx, fields/Hy hold, in order, exactly the full field at each write_field call for that component, and nothing else.", "quantifier": "every history of updates and writes", "why_tests_cant": "unbounded histories", "anchors": ["src/field2.cpp: write_field, create_fields_dataset, writeE, writeH"]}
{"id": "C47", "title": "Automatically generated names never collide", "statement": "Monitors, sources, objects and materials created without a name get pairwise distinct names, and the faces of automatically named boxes are distinct from every automatically named monitor.", "quantifier": "every sequence of creations of every kind of monitor, source, object or material", "why_tests_cant": "unbounded creation histories", "anchors": ["include/monitors/*.h constructors", "src/sources/source.cpp", "src/object.cpp:1-78", "include/materials/material.h"]}
{"id": "C48", "title": "Stopwatches account for disjoint time", "statement": "In every history of successful API calls the clocks are started and stopped alternately without error, every call leaves the work clocks stopped, and the reported looping, fourier and HDF5 times are non-negative and add up to at most the total, given a non-decreasing system clock.", "quantifier": "every history of calls, every non-decreasing sequence of clock readings", "why_tests_cant": "depends on unbounded histories and on real time", "anchors": ["include/timer.h: timer::begin, timer::end", "src/timer.cpp: timers", "src/field2.cpp: update, write_field"]}
{"id": "C49", "title": "An exception leaves the simulation usable", "statement": "If update() throws because a source has an invalid field component, catching the exception leaves a simulation on which further calls behave normally.", "quantifier": "every simulation with such a source", "why_tests_cant": "exception paths are not exercised", "anchors": ["src/field2.cpp: update, get_field_ref", "include/timer.h: timer::begin"]}
{"id": "C50", "title": "clear_fields restarts the simulation", "statement": "After clear_fields the simulation behaves as a freshly constructed one with the same objects, sources and region: every later field equals that of the fresh run.", "quantifier": "every history before clear_fields, every number of updates after it", "why_tests_cant": "residual hidden state only matters after particular histories", "anchors": ["src/field2.cpp: clear_fields", "src/pml.cpp: psi fields", "src/materials/*_polarization.cpp: reset"]}
{"id": "C51", "title": "A simulation without an output file works", "statement": "Constructing Field2D with the default (empty) file name yields a usable simulation without file output.", "quantifier": "every grid", "why_tests_cant": "the constructor is always tested with a file name", "anchors": ["src/field2.cpp: Field2D::Field2D"]}
{"id": "C52", "title": "TFSF flux is the incident spectrum and always defined", "statement": "tfsf.flux() returns, for every frequency, the product spectrum of the incident E and H recorded on the 1D line, and is well defined whether or not frequencies were requested.", "quantifier": "every profile with or without frequencies, every history", "why_tests_cant": "falling off the end of a function may return plausible garbage", "anchors": ["src/tfsf.cpp: tfsf::flux, tfsf::pulse"]}
{"id": "C53", "title": "Source spectra are recorded independently of the user's profile object", "statement": "Every source owns a copy of its time profile: pulsing the simulation never changes the profile object passed by the user or another source's copy, and the recorded source spectrum is the Fourier sum of the emitted values.", "quantifier": "every profile, every number of sources sharing it, every history", "why_tests_cant": "aliasing across all histories", "anchors": ["src/sources/source.cpp: source::source", "src/sources/time_profile.cpp: update, response, clone"]}
{"id": "C54", "title": "Near-to-far-field transform is linear in the recorded fields", "statement": "ntff at any point is linear in the recorded E and H spectra, so far fields superpose and subtracting monitors subtracts far fields; the box transform is the sum of its four faces.", "quantifier": "every recorded data, observation point and frequency", "why_tests_cant": "all data", "anchors": ["include/monitors/surface_monitor.h: ntff", "include/monitors/cylinder_monitor.h: ntff", "include/monitors/box_monitor.h: ntff"]}
{"id": "C55", "title": "The far field does not depend on the resolution", "statement": "The near-to-far-field sum approximates an integral over the surface, so monitors on the same surface that recorded the same field report the same far field whatever the grid spacing.", "quantifier": "every surface, observation point, frequency and pair of grid resolutions", "why_tests_cant": "A test compares one resolution with itself or normalises the pattern; a missing length element only shows when absolute values at two resolutions are compared.", "anchors": ["include/monitors/surface_monitor.h:178-215", "include/monitors/cylinder_monitor.h:88-122"]}
{"id": "C56", "title": "The far field is collected in the direction of travel", "statement": "The contributions of a wave that crosses the monitor travelling towards the observer add up in phase at the observer; the sign convention of the phase in ntff agrees with that of the running transform.", "quantifier": "every wave, direction, frequency and number of points", "why_tests_cant": "Patterns of symmetric scatterers are mirror symmetric, so an exchanged direction is invisible in the examples.", "anchors": ["include/monitors/surface_monitor.h:178-215", "src/dft.cpp:28-100"]}
{"id": "C57", "title": "Programs inside the domain run to their end", "statement": "A simulation on a grid at least two nodes wider than the absorbing layer can be constructed, and every program of calls that stays inside the domain, gives its time monitors names of their own and writes single components runs to its end: no call throws an exception and none has undefined behaviour. A second time monitor with a name already taken throws when it is added.", "quantifier": "every grid, every sequence of construction, update, clearing and output calls inside the domain, of any length", "why_tests_cant": "no finite set of programs covers all call orders and lengths", "anchors": ["src/field2.cpp: update, write_field, clear_fields", "include/field2.h: add", "src/time_monitors/time_monitor.cpp: set_F, write_if_ready", "include/timer.h"]}
{"id": "C58", "title": "Recentred components are values at the point named", "statement": "to_grid, to_xgrid and to_ygrid give the value of a component at the node, half a cell to its right and half a cell above it: an average of samples less than a cell away that is exact for affine fields. They are defined at every node off the border.", "quantifier": "every field, component, resolution and node", "why_tests_cant": "A one-cell offset in an average changes smooth fields only by a small amount, so a test on one simulated field passes within its tolerance.", "anchors": ["src/field2.cpp:279-304"]}
{"id": "C59", "title": "The far field on a circle covers N directions", "statement": "ntff(radius, N) gives the far field in N different, equally spaced directions once around the monitor.", "quantifier": "every monitor, radius and number of directions N >= 2", "why_tests_cant": "A repeated end point is not visible in a polar plot; it only biases sums over the directions.", "anchors": ["include/monitors/box_monitor.h:64-75", "include/monitors/cylinder_monitor.h:172-185"]}
{"id": "C60", "title": "An object hidden by later ones has no effect", "statement": "If every node inside an object lies inside an object added after it, the fields evolve as if the hidden object had never been added.", "quantifier": "every simulation state, every hidden object, every list of covering objects, any number of updates", "why_tests_cant": "The effect of a covered object depends on materials, shapes and order; tests check only a few combinations, usually of non-dispersive materials.", "anchors": ["src/field2.cpp:320-380", "include/field2.h:171-184"]}
{"id": "C61", "title": "Names of materials have no physical effect", "statement": "Two programs that differ only in the names given to materials produce the same fields, monitors, time records and outcomes.", "quantifier": "every program of public calls of any length, every renaming of the materials in it", "why_tests_cant": "Tests use one set of names; the effect of a clash or of the alphabetical order shows up only for particular combinations of materials.", "anchors": ["include/field2.h:171-184", "src/field2.cpp:320-394"]}
{"id": "C62", "title": "Nothing written to the output file is lost or changed", "statement": "Whatever calls follow, also calls that throw, every group and data set in the file stays there with the values it has; data sets that grow only get more rows at their end.", "quantifier": "every state, every program of public calls of any length, every path in the file", "why_tests_cant": "A test can look at some data sets after some calls; it cannot cover all later programs.", "anchors": ["src/object.cpp:37-52", "src/dynamic_object.cpp:41-57", "src/monitors/monitor.cpp:21-27"]}
{"id": "C63", "title": "The file describes every object and its material", "statement": "For every object that was added, the file holds at the end of the program its shape, its pose and the parameters of its material.", "quantifier": "every grid, every program with the addition anywhere in it, every object static or dynamic", "why_tests_cant": "The record depends on what was added before under the same material name; tests use few objects.", "anchors": ["src/object.cpp:37-52", "src/field2.cpp:351-359", "src/materials/material.cpp:9-17"]}
{"id": "C64", "title": "The file holds the trajectory of a dynamic object", "statement": "The data sets of a dynamic object hold its initial pose followed by its pose at each write_current, in order, however the pose was changed in between, and write_current never fails.", "quantifier": "every program, every object, every sequence of pose changes and writes", "why_tests_cant": "A trajectory is any interleaving of moves, rotations and other calls.", "anchors": ["src/dynamic_object.cpp:41-57", "src/dynamic_object.cpp:33-39"]}
{"id": "C65", "title": "A call that throws because of the file leaves the simulation unchanged", "statement": "If a call throws, the simulation is as it was before the call.", "quantifier": "every state, every call that throws", "why_tests_cant": "Which calls have already acted when the file refuses them depends on the state of the file.", "anchors": ["include/field2.h:133-168", "src/field2.cpp:246-250", "src/field2.cpp:320-359"]}
{"id": "C66", "title": "Programs with different names do not fail in the file", "statement": "If no two things of one kind have the same name, HDF5 calls do not fail, and the program acts on the simulation as if there were no file.", "quantifier": "every grid, every program of any length", "why_tests_cant": "Clashes of paths can arise between any two calls of a program.", "anchors": ["src/object.cpp:29-52", "src/sources/source.cpp:25-31", "src/monitors/monitor.cpp:21-27", "src/materials/material.cpp:9-17"]}
{"id": "C67", "title": "The spectra in the file are the Fourier sums of the fields", "statement": "After write() on a monitor its group holds, for each component, position and frequency, the Fourier sum of the field over the updates since the monitor was added; flux().write() stores the flux of these.", "quantifier": "every grid, every program, every monitor inside the domain, any number of updates", "why_tests_cant": "The content of the file depends on the whole history of the simulation.", "anchors": ["include/monitors/rank_monitor.h:20-22", "include/dft.h:80-84", "src/dft.cpp:7-48", "src/monitors/flux.cpp:11-17"]}
{"id": "C68", "title": "Names in the file are used once", "statement": "A name that was given to an object, source, monitor, plane wave or report cannot be used again for another of the same kind, whatever happens in between; the data of the first stay.", "quantifier": "every state, every program between the two calls", "why_tests_cant": "The calls between the two uses, e.g. remove_monitors or clear_materials, are arbitrary.", "anchors": ["src/field2.cpp:246-250", "src/field2.cpp:212-244", "src/monitors/flux.cpp:11-17"]}
{"id": "C69", "title": "A Gaussian pulse is over after a while and its recorded spectrum converges", "statement": "The signal of gaussian_time is a sine under a Gaussian envelope around T0: w widths away from T0 it is at most exp(-w^2). The spectrum that the source records approaches the Fourier sums over all times as the simulation goes on.", "quantifier": "every frequency, width and delay, every time, every list of requested frequencies, every grid", "why_tests_cant": "Convergence is a statement about arbitrarily long runs.", "anchors": ["src/sources/time_profile.cpp:15-21", "src/sources/time_profile.cpp: update"]}
{"id": "C70", "title": "Sources put a bounded field into a closed domain", "statement": "Without absorbing layer and with passive materials, the root of the field energy grows per update by at most a constant times the signals of the sources. With pulses for sources the field stays below one bound for ever.", "quantifier": "every grid without layer, all passive objects, all sources inside, any number of updates", "why_tests_cant": "Instability shows after arbitrarily many steps and for particular arrangements.", "anchors": ["src/field2.cpp: Field2D::update", "src/sources/point_source.cpp:15-18", "src/sources/line_source.cpp:15-21"]}
{"id": "C71", "title": "The simulation solves Maxwell's equations", "statement": "Started with the values of a solution of Maxwell's equations in a domain with walls, the simulation follows that solution: after any time the integral of the squared difference is bounded by the square of the elapsed time multiplied by a term of fourth order in the cell size (second order in the field), plus the area of the cells cut by material interfaces, which is of first order in the cell size.", "quantifier": "every grid without absorbing layer, every arrangement of objects of non-dispersive passive material, every bounded piecewise smooth solution, any number of updates", "why_tests_cant": "A convergence order holds for all solutions and all cell sizes; a test compares one solution on a few grids.", "anchors": ["src/field2.cpp:122-197", "src/field2.cpp: insert_object, update_object_material_grid"]}
{"id": "C72", "title": "Fields in a closed domain with dispersive media stay bounded", "statement": "In a domain without absorbing layer and without sources, the field in passive Debye, Drude and Lorentz media stays bounded for all time: a passive medium does not amplify.", "quantifier": "every grid without absorbing layer, every arrangement of objects of passive dispersive material, any start field, any number of updates", "why_tests_cant": "An instability can grow slowly, in one mode of one parameter set; a bound for all time cannot be seen in finitely many steps.", "anchors": ["src/materials/debye_polarization.cpp", "src/materials/drude_polarization.cpp:25-40", "src/materials/lorentz.cpp:40-60", "src/field2.cpp:122-197"]}
{"id": "C73", "title": "Rounding does not shift positions, nodes or the clock", "statement": "In double precision a grid index turned into a position and back is the same index, the number of nodes is the requested length in cells rounded up, the time after n updates is n time steps up to a relative error of 3 n times the unit roundoff, and the signal of a continuous source is the sine wave up to the accuracy of the library and the phase error that follows from the clock.", "quantifier": "every cell size and index, every length and resolution, any number of updates", "why_tests_cant": "Rounding errors depend on every bit of the inputs; a sample of cell sizes can miss the one where a product falls on the wrong side of a half or of an integer.", "anchors": ["src/grid.cpp:10-11", "src/grid.cpp: to_grid, to_real", "src/field2.cpp:122-160"]}
{"id": "C74", "title": "A simulation in double precision follows the exact one", "statement": "In a domain without absorbing layer, the fields that the program computes in double precision differ from the fields of the same simulation in exact arithmetic by at most the start field and all that the sources emitted, times the number of steps, the number of sources and the unit roundoff and a constant that depends only on the largest permittivity, plus the accumulated error of the signals and a term from the smallest numbers. Rounding cannot make the simulation unstable.", "quantifier": "every grid without absorbing layer, every arrangement of objects of non-dispersive passive material, any start field, any sources, any number of updates", "why_tests_cant": "Exact values are not available to a test, and rounding errors add up over any number of steps and depend on all field values.", "anchors": ["src/field2.cpp:122-197", "include/field2.h", "CMakeLists.txt:9-16"]}
{"id": "C75", "title": "What the program computes is close to the electromagnetic wave", "statement": "In a domain without absorbing layer, take a solution of Maxwell's equations in the given medium and give the program its values at the nodes, rounded to doubles. After n updates the fields in memory, computed in double precision, differ from the solution at that time by at most a discretisation part, second order in the cell size, and a rounding part, each in proportion to n.", "quantifier": "every grid without absorbing layer, every arrangement of objects of non-dispersive passive material, every smooth solution, up to a billion updates", "why_tests_cant": "The exact solution and exact arithmetic are both out of reach of a test, and the bound is for every medium, wave and number of steps.", "anchors": ["src/field2.cpp:122-197", "include/field2.h", "include/object.h", "src/grid.cpp"]}
{"id": "C76", "title": "Source and observer can change places", "statement": "From silence, the electric field that a point source of Ez at node a produces at node b is at every step the field that a source with the same signal at b produces at a, if there is the same matter at both nodes; between two different non-dispersive materials the fields are in the inverse ratio of eps/dt + sigma/2. Objects of all media, dispersive ones too, and the absorbing layer may be around the nodes.", "quantifier": "every grid, every list of objects of any material, every two interior nodes that lie in the same objects, every signal, every number of updates", "why_tests_cant": "A test can only try some arrangements and compares rounded numbers; the claim relates two runs for every arrangement, signal and number of steps.", "anchors": ["src/field2.cpp:122-197", "src/pml.cpp", "include/object.h", "src/sources/point_source.cpp"]}
{"id": "C77", "title": "The unit of length does not matter", "statement": "A program whose lengths and times are multiplied by one factor, and whose frequencies, conductivities and resolution are divided by it, computes the same fields at the same nodes after the same number of updates.", "quantifier": "every factor, every grid, every list of objects of any material, every sources and incident wave, every number of updates", "why_tests_cant": "A test can compare a few factors and only up to rounding; the claim relates two programs for every scene and factor.", "anchors": ["src/grid.cpp:8-16", "include/pml.h:15", "src/pml.cpp:12-72", "src/field2.cpp:122-197", "src/materials"]}
{"id": "C78", "title": "Place of the scene and size of the domain do not matter before waves return", "statement": "If the same scene is put by whole cells at another place of a domain of another size with an absorbing layer of another thickness, then after n updates the fields agree at all nodes that are more than n cells inside the layers of both domains.", "quantifier": "every two grids of the same spacing, every shift, every list of objects of any material, every sources and incident wave, every number of updates", "why_tests_cant": "A test can only compare some domains; the claim is about all pairs of domains and every time before the return of the waves.", "anchors": ["src/grid.cpp:8-24", "src/field2.cpp:122-197", "src/pml.cpp:94-187", "src/tfsf.cpp:30-117"]}
{"id": "C79", "title": "Every field value is a number", "statement": "A program whose inputs are numbers in the physical range never divides by zero: after any number of updates no field value is an infinity or NaN, apart from overflow.", "quantifier": "every grid and thickness of the layer, every list of objects of any material in the physical range, every sources and incident wave, every number of updates", "why_tests_cant": "A test sees NaN only for the scenes it runs; the claim is that no scene, resolution or thickness makes a coefficient a quotient by zero.", "anchors": ["src/pml.cpp:28-92", "src/field2.cpp:122-197", "src/materials", "src/tfsf.cpp:30-117", "src/grid.cpp:8-16"]}
{"id": "C80", "title": "Starting later delays the fields and changes nothing else", "statement": "If every signal of a program (point sources, line sources, incident wave) starts k steps later and is zero until then, the fields after n + k updates are exactly those the original program has after n updates, and until then there are no fields.", "quantifier": "every grid and layer, every list of objects of any material, every sources, signals and incident wave, every delay k, every number of updates n", "why_tests_cant": "A test compares some delays of some signals; the claim is that no state (memories of the layer, previous fields, currents, the line of the incident wave) depends on the clock, for every scene.", "anchors": ["src/field2.cpp:122-197", "src/tfsf.cpp:43-105", "src/sources/point_source.cpp:15-18", "src/sources/line_source.cpp:15-21"]}
{"id": "C81", "title": "T0 of gaussian_time delays the pulse", "statement": "A program whose pulse is gaussian_time(f, sig, T0 + τ) has the fields of the program with gaussian_time(f, sig, T0), later by τ.", "quantifier": "every frequency, width, T0 and delay, every number of updates", "why_tests_cant": "A test with a pulse of one frequency and a delay of whole periods would pass.", "anchors": ["src/sources/time_profile.cpp:15-21"]}
{"id": "C82", "title": "A dispersive material is given by its poles, not by the way they are listed", "statement": "The fields do not change when the poles of a Debye, Drude or Lorentz material are listed in another order, when poles of no strength are added or left out, or when a pole is given as two of the same shape whose strengths add up.", "quantifier": "every grid, any objects and their overlaps, any sources, any start field, any lists of poles, any number of updates", "why_tests_cant": "The poles of a node are updated one after another and each sees what the ones before did to the electric field; a test compares finitely many materials for a few steps.", "anchors": ["src/materials/debye_polarization.cpp:26-38", "src/materials/drude_polarization.cpp:26-38", "src/materials/lorentz_polarization.cpp:27-46"]}
{"id": "C83", "title": "Objects act only as currents at their own nodes, so outside the total-field region there is only the scattered field", "statement": "The program without the objects, with one more point source of Ez at each node inside them, computes the same fields at all steps for some signals of these sources; in a dielectric the signal is minus the change of (eps - 1) E plus the conduction current. With an incident wave the field is therefore the wave in empty space plus the field these sources make without the wave, and outside the total-field region it is only the latter.", "quantifier": "every grid with or without absorbing layer, any objects and overlaps, any sources, any incident wave, all nodes, any number of updates", "why_tests_cant": "A test compares scattered fields of one or two shapes with a series solution up to a discretisation error much larger than a leak; the exact statement quantifies over all scenes and steps.", "anchors": ["src/field2.cpp:122-197", "src/tfsf.cpp:83-105", "src/materials/lorentz_polarization.cpp:34-45", "src/sources/point_source.cpp:15-18"]}
{"id": "C84", "title": "Sources radiate the field that Maxwell's equations give for a current", "statement": "In a closed domain with any dielectric and conducting objects, point sources of Ez whose signals are a current density, with the sign and scale of a current, make the program compute the field that this current radiates: from rest, the error after n updates is at most a term for the start plus n dt times a term per unit of time. The signals have to be half a step behind the clock for an error of second order in the cell size; the same signals at the time of the clock give an error of first order.", "quantifier": "every closed grid and cell size, any objects of passive simple materials, any current and any solution of Maxwell's equations for it, any sources that carry the current up to any error, any number of updates", "why_tests_cant": "A test compares one antenna on one grid with a series or another solver; the bound holds for all currents, media, cell sizes and times, and the half step between clock and signal is far below what a test resolves.", "anchors": ["src/sources/point_source.cpp:15-18", "src/field2.cpp:122-197", "src/materials/simple_material.cpp"]}
{"id": "C85", "title": "In Debye and Drude media of one pole the program solves the equations of the medium", "statement": "In a closed domain with objects of simple, Debye and Drude materials of at most one pole, none of which covers a dispersive one of another material, and with sources outside the dispersive objects, the fields of the program follow every solution of Maxwell's equations together with tau dK/dt + K = dEps dE/dt (Debye) or dK/dt + gamma K = omega^2 E (Drude): the error after n updates is at most a multiple of the error at the start plus n dt times a term of second order in the cell size, apart from the cells which the edges of objects cross. A source inside such an object is not felt by its pole.", "quantifier": "every closed grid and cell size, any passive objects of these materials, any start values, any solution without polarization current at the start, any sources outside the dispersive objects that carry the current of the solution up to any error, any number of updates", "why_tests_cant": "A test compares the spectrum of one object with Mie theory at a few frequencies and one resolution; the bound holds for all materials, shapes, resolutions and times, and a wrong coupling of field and polarization current can hide below the discretisation error of one grid.", "anchors": ["src/materials/debye_polarization.cpp:26-38", "src/materials/drude_polarization.cpp:26-38", "src/field2.cpp:122-197", "src/sources/point_source.cpp:15-18"]}
{"id": "C86", "title": "A closed domain rings at the resonances of its box", "statement": "Without absorbing layer the domain is a resonator. Filled with one dielectric, its field is a sum of standing waves that oscillate for ever at the resonance frequencies of a rectangular box with conducting walls, none other; the frequencies on the grid are never above those of Maxwell's equations and below them by a part of at most (k dx)^2 / 24.", "quantifier": "every grid without absorbing layer, every dielectric that fills it, any fields at the start, all standing waves, any number of updates", "why_tests_cant": "A test can look for a few peaks in the spectrum of one run; that no other frequency ever occurs, and the bound on every frequency, are statements about all start fields, all grids and all times.", "anchors": ["src/field2.cpp:136-142", "src/field2.cpp:178-184", "src/grid.cpp:8-16"]}
{"id": "C87", "title": "Monitors are subtracted only if they agree", "statement": "`monitors[i] -= other` subtracts only if the two have the same frequencies and the same components on the same points (the comment in include/dft.h:95 says so); otherwise the call is refused and the monitor is left as it was.", "quantifier": "every state of a simulation, every attached monitor, every monitor on the right side", "why_tests_cant": "The cases in which the two sides disagree (a component missing, other frequencies, another length) are endless, and a half-done subtraction is invisible unless the monitor is used after the exception.", "anchors": ["include/dft.h:94-101", "include/monitors/rank_monitor.h:16-18", "include/monitors/box_monitor.h:98-101"]}
{"id": "C88", "title": "Materials with parameter arrays of different lengths are refused", "statement": "A Debye, Drude or Lorentz material whose parameter arrays have different lengths is refused with an error, when it is made, joined by `drude_lorentz` or used; arrays of one length are combined pole by pole.", "quantifier": "every dispersive material, every lengths and contents of its arrays, every domain and object", "why_tests_cant": "The lengths are run-time sizes; a test can only try some of them, and reading past the end of an array usually goes unnoticed.", "anchors": ["src/materials/debye.cpp:9-12", "src/materials/drude.cpp:9-13", "src/materials/lorentz.cpp:9-13", "src/materials/creation.cpp:8-24"]}
{"id": "C89", "title": "Plane waves travel with the speed of light", "statement": "A plane wave in a uniform dielectric stays a plane wave of the same shape, in every direction; its speed is that of light in the dielectric up to the error of the grid, and never larger.", "quantifier": "every grid, dielectric, wave vector, phase, number of updates; every rectangle beyond the absorbing layer, until signals from outside reach it", "why_tests_cant": "A test sees a few directions and wavelengths; the dispersion of the grid depends on both and shows only over long distances.", "anchors": ["src/field2.cpp:122-197", "src/materials/simple_material.cpp", "src/grid.cpp:8-16"]}
{"id": "C90", "title": "Interfaces reflect as Fresnel's formulas say", "statement": "A wave that meets the plane between two dielectrics is reflected and transmitted in the proportions of Fresnel's formulas, up to the error of the grid, with no other waves.", "quantifier": "every grid, pair of dielectrics, position of the plane, angle of incidence, frequency, phase, number of updates", "why_tests_cant": "Reflection is measured from fields that overlap; a test can compare single cases with a tolerance, but not tell which error is due to the grid and which to a wrong treatment of the interface.", "anchors": ["src/field2.cpp:122-197", "src/materials/simple_material.cpp", "src/field2.cpp: update_material_grid, insert_object_helper"]}
{"id": "C91", "title": "Media respond with their textbook permittivity", "statement": "At a fixed frequency a conductor, a Debye medium of one pole or a Drude medium of one pole acts as a medium with the permittivity that the textbooks give it: waves travel and decay in it with the corresponding complex wave number, and planes between two media reflect accordingly, total reflection and metals included.", "quantifier": "every grid, pair of media of at most one pole, complex wave vector and frequency, position of the plane, number of updates", "why_tests_cant": "The response depends continuously on frequency and on the parameters of the medium, and the discretization shifts the frequency; a test that compares a few fitted decay lengths with a tolerance cannot tell that shift from a wrong coefficient.", "anchors": ["src/field2.cpp:122-197", "src/materials/debye_polarization.cpp", "src/materials/drude_polarization.cpp", "src/materials/debye.cpp", "src/materials/drude.cpp"]}
{"id": "C92", "title": "Lossless closed domains can be run backwards", "statement": "In a closed domain of lossless media without sources the update can be undone: reverse the magnetic field of half a step earlier and the polarization currents, run for the same number of updates, reverse again, and the fields of the start are back. Hence different starts never lead to the same state.", "quantifier": "every grid, arrangement of lossless objects, field at the start, number of updates", "why_tests_cant": "The claim is about every state and every number of updates; a test sees a few runs and, in floating point, only up to a tolerance under which a weak loss or an unbalanced stencil hides.", "anchors": ["src/field2.cpp:122-197", "src/materials/drude_polarization.cpp", "src/materials/drude.cpp"]}
{"id": "C93", "title": "With a Lorentz medium of one pole the program solves the equations of the medium, to first order", "statement": "In a closed domain with objects of simple media, an object of a Lorentz medium of one pole added last, and sources of Ez outside of it, the fields of the program follow every solution of Maxwell's equations together with P'' + 2 gamma P' + omega^2 P = dEps omega^2 E that starts from rest. For a given duration the error is at most a constant times the cell size, the current that the sources do not carry, and the root of the area of the cells that the edges of objects cross: the loop over the whole grid that adds Ca_prev times the old field to every node costs one order compared with Debye and Drude media, but it does not keep the program from converging.", "quantifier": "every grid, list of simple objects, Lorentz object, solution, list of sources, number of updates", "why_tests_cant": "The claim is about every solution and the limit of small cells; a test sees a few grids and cannot tell a term of first order, or one that grows with time, from the errors of second order that it expects.", "anchors": ["src/field2.cpp:122-197", "src/materials/lorentz.cpp:38-64", "src/materials/lorentz_polarization.cpp"]}
{"id": "C94", "title": "The spectra that a volume monitor writes are those of the electromagnetic wave", "statement": "A program adds objects and sources to a closed domain without an absorbing layer, watches a rectangle with a volume monitor, advances, and writes the spectra. If the sources carry the current of a solution of Maxwell's equations in these media that starts from rest, then dt times the numbers in the file are the integrals of the fields of the solution times exp(2 pi i f t) from the start to the last step, in the mean over the rectangle. The error is at most the duration times the error of the fields (C84, C85, C93) plus a term of first order in the time step: the sum over the steps takes the place of the integral, and the magnetic field is recorded half a step late. It holds for simple media, for one Debye or Drude medium of one pole, and for one Lorentz medium of one pole.", "quantifier": "every grid, list of objects, sources, solution, monitor, list of frequencies and number of updates", "why_tests_cant": "A test compares a few frequencies of a few waves with a tolerance; it cannot tell an error that vanishes with the cells from one that does not, and not for every solution.", "anchors": ["src/dft.cpp:75-100", "include/monitors/volume_monitor.h:66-68", "src/field2.cpp:122-197"]}
{"id": "C95", "title": "Results that have not been written can be written", "statement": "After any program, including one with calls that threw, a call that writes spectra, a quantity of a monitor or the flux of the incident wave ends normally if the quantity can be computed and no earlier call wrote results to the same place. The results are then in the file and the simulation is unchanged. Together with C68, writing fails exactly if the place is taken.", "quantifier": "every grid, file name, program that adds new monitors, and result call", "why_tests_cant": "The claim is about every order of calls and every combination of names; groups of monitors, sources, objects and results share one tree, and a clash shows only for certain names.", "anchors": ["src/monitors/monitor.cpp:21-27", "src/monitors/flux.cpp:11-17", "include/dft.h:80-84", "include/monitors/rank_monitor.h:20-22"]}
{"id": "C96", "title": "The flux that a surface monitor writes is the energy flow of the electromagnetic wave", "statement": "A program adds objects and sources to a closed domain without an absorbing layer, watches a vertical or horizontal line with a surface monitor, advances, and writes the flux. If the sources carry the current of a solution of Maxwell's equations in these media that starts from rest, then dt squared times the number in the file for frequency f is the integral along the line of the Poynting vector of the spectra of the solution, in the direction of the sign of the monitor. The line is the one between the nodes nearest to the end points of the monitor. The error is first order in the size of the cells plus the error of the fields (C84, C85, C93) divided by the root of the size of the cells, so it vanishes with the cells where the solution is smooth. It holds although the code interpolates the magnetic field at places shifted by dx cells instead of half a cell (C39), for cells of size at most 1. It holds for simple media, for one Debye or Drude medium of one pole, and for one Lorentz medium of one pole.", "quantifier": "every grid with dx at most 1, list of objects, sources, solution, line two nodes away from the walls, sign, list of frequencies and number of updates", "why_tests_cant": "A test compares a few frequencies of a few waves with a tolerance; it cannot tell an error that vanishes with the cells from one that does not, and not for every solution and line.", "anchors": ["include/monitors/surface_monitor.h:94-130", "include/monitors/surface_monitor.h:165-176", "src/monitors/flux.cpp:20-35", "src/field2.cpp:252-281"]}
{"id": "C97", "title": "The flux that a box monitor writes is the energy that leaves the box", "statement": "A program adds objects and sources to a closed domain without an absorbing layer, puts a box monitor around anything, advances, and writes the flux. If the sources carry the current of a solution of Maxwell's equations in these media that starts from rest, then dt squared times the number in the file for frequency f is the integral of the Poynting vector of the spectra of the solution over the four faces of the box, with the normal pointing outwards at each face. The box is the one between the nodes nearest to its corners. The error is the sum of the errors of the faces (C96). So a positive number means that the inside gives energy away, and a negative one that it absorbs.", "quantifier": "every grid with dx at most 1, list of objects, sources, solution, box two nodes away from the walls, list of frequencies and number of updates", "why_tests_cant": "A test can see that the flux of one box has a plausible size and sign; that all four faces enter with the right sign for every wave, so that what flows through and out again cancels, needs a comparison with every solution.", "anchors": ["include/monitors/box_monitor.h:16-53", "include/vec.h:146-170", "src/monitors/flux.cpp:20-35"]}
{"id": "C98", "title": "The flux of a box monitor tells how much energy the bodies inside absorb", "statement": "A program adds objects and sources to a closed domain without an absorbing layer, puts a box monitor around some of them, advances, and writes the flux. If the sources carry the current of a solution of Maxwell's equations in these media that starts from rest, then minus dt squared times the number in the file for frequency f is the work that the electric field does at that frequency on all the currents inside the box: conduction, the currents of poles, and the sources. The error is that of C97 plus a bound for the field that has not yet left the box. If there is no source inside and no loss, the number is zero up to this error. If there is no source inside and the bodies are conductors, or Debye, Drude or Lorentz media, the number is not positive up to this error: bodies absorb and never supply.", "quantifier": "every grid with dx at most 1, list of objects, sources, solution, box two nodes away from the walls, list of frequencies and number of updates", "why_tests_cant": "A test can compare absorption with scattering for one body; that no body of any of these media can ever appear to emit energy, for any shape, source and frequency, needs Poynting's theorem.", "anchors": ["include/monitors/box_monitor.h:16-53", "src/monitors/flux.cpp:20-35", "src/materials/drude_polarization.cpp:1-45", "src/materials/debye_polarization.cpp:1-44", "src/materials/lorentz_polarization.cpp:1-53"]}
{"id": "C99", "title": "The incident wave is the plane wave", "statement": "In empty space, a program with a total-field region computes inside the region the plane wave with the signal of the region that travels up from its lower edge. For a signal that starts smoothly the errors of Ez and Hx are bounded at every node and step, also after the wave has left the region, and for fixed size of the region and time they are of second order in the size of the cells. Hy is zero, and there is no field outside.", "quantifier": "every grid with or without absorbing layer, region clear of it, signal with five bounded derivatives that is zero before the start, node and number of updates", "why_tests_cant": "A test compares one pulse on one grid after some steps with a tolerance; the order, and that reflections at the far end of the line never grow, are statements about all grids and times.", "anchors": ["src/tfsf.cpp:32-105", "src/field2.cpp:122-197"]}
{"id": "C100", "title": "A program with a total-field region solves the scattering problem", "statement": "Objects of simple media lie inside the total-field region. At all steps the fields are exactly the sum of the incident wave in empty space and the fields of the program without incident wave and with point sources in the objects that carry the current which the incident wave induces. In a domain without absorbing layer the fields converge in the mean square to the plane wave plus the scattered wave inside the region and to the scattered wave alone outside, where the scattered wave solves Maxwell's equations in the media of the objects with the induced current.", "quantifier": "every grid, list of objects of simple media in the region, sources, signal that starts smoothly, solution of Maxwell's equations, and number of updates; the exact statement also with absorbing layer", "why_tests_cant": "A test can compare a few shapes with a series solution up to a discretisation error; convergence is about all shapes and a limit.", "anchors": ["src/tfsf.cpp:32-105", "src/field2.cpp:122-197", "src/object.cpp:1-78", "src/sources/point_source.cpp:15-18"]}
{"id": "C101", "title": "Scattering and absorption of an incident wave as box monitors write them", "statement": "In a program with a total-field region, objects of simple media inside it and a box monitor, the number that the monitor writes as flux tells a scattering experiment: of a box around the region it is the energy of that frequency which the scattered wave carries away, without the incident wave; of a box inside the region it is the energy that the sum of scattered and incident wave carries out of it. If that field has faded at the end, the number of an inner box is minus the energy given to conductors and sources in the box, and not positive if it has no source in it. All this up to an error that is bounded explicitly by that of the fields (C100) and terms of first order in the size of the cells.", "quantifier": "every closed grid with cells of at most unit size, list of objects of passive simple media in the region, sources, signal that starts smoothly, solution of Maxwell's equations, box around or inside the region, frequency list, number of updates and calls made afterwards", "why_tests_cant": "A test compares the cross sections of a few bodies with a series; that the incident wave drops out of the flux through any box, for any body and number of steps, is a statement about all of them.", "anchors": ["include/monitors/box_monitor.h:16-53", "src/monitors/flux.cpp:20-35", "src/tfsf.cpp:32-105", "src/field2.cpp:122-197"]}
{"id": "C102", "title": "Force and torque of box monitors are the flow of momentum and angular momentum of the electromagnetic wave", "statement": "What a box monitor writes as force is the integral of Maxwell's stress tensor, of the Fourier transform of the electromagnetic wave at that frequency, over the edge of the box, and what it writes as torque is the integral of its moment about the centre of the box. In a program with a total-field region the wave is the scattered one for a box around the region, and the sum of the scattered wave and the plane wave, so that it is the push of the light on the bodies, for a box inside the region. The error is bounded explicitly by that of the fields (C84, C85, C93, C100) and terms of first order in the size of the cells, for the torque times the size of the box.", "quantifier": "every closed grid with cells of at most unit size, list of objects of simple media, of Debye and Drude media of one pole or of a Lorentz medium on top of simple ones, sources, solution of Maxwell's equations, box two nodes away from the walls, frequency list, number of updates and calls made afterwards", "why_tests_cant": "A test compares the force on a sphere with a formula at a few frequencies; that the stress is rotated rightly on each side, taken at the right point and summed to the integral holds for all boxes, waves and step counts or fails for some of them.", "anchors": ["src/monitors/force.cpp:31-58", "src/monitors/force.cpp:60-89", "include/monitors/box_monitor.h:77-95", "include/monitors/surface_monitor.h:217-246"]}
{"id": "C103", "title": "Force and torque of a box monitor are those of the light on the matter in the box", "statement": "Once the field in the box has faded, the numbers that a box monitor writes as force are, at every frequency, the Lorentz force of the magnetic field on all currents in the box: those of polarization (of simple, Debye, Drude and Lorentz media), of conduction and of the sources. The numbers of the torque are the moment of this force about the centre of the box. In a total-field region the field is the sum of the scattered wave and the plane wave. A box with neither matter nor sources in it feels neither force nor torque, however much light passes through it. The error is bounded explicitly by that of C102 and what is left of the field.", "quantifier": "every closed grid with cells of at most unit size, list of objects of simple media, of Debye and Drude media of one pole or of a Lorentz medium on top of simple ones, sources, solution of Maxwell's equations without magnetic charges, smooth up to a set that meets lines in countably many points, box two nodes away from the walls, frequency list, number of updates and calls made afterwards", "why_tests_cant": "A test reads one number for one body; that the stress on the four sides of the box adds up to the force on what is inside, and to nothing for an empty box, is a conservation law over all waves, bodies and boxes.", "anchors": ["src/monitors/force.cpp:31-58", "src/monitors/force.cpp:60-89", "include/monitors/box_monitor.h:77-95", "include/monitors/surface_monitor.h:217-246"]}
{"id": "C104", "title": "Fluxes divided by the flux of the incident wave are cross sections", "statement": "What a program writes as flux of the incident wave of a total-field region is, at every requested frequency, the energy that the plane wave with the signal of the region carries through a unit of length across its direction up to that time, whatever objects and sources are in the domain. Hence the flux that a box monitor around the region writes, divided by it, is the scattering cross section of Maxwell's equations, and the one of a box inside the region the absorption cross section with the opposite sign. The errors are bounded explicitly; that of the incident wave is at most a constant times the size of the step for fixed time and height of the region.", "quantifier": "every grid, region, signal that starts smoothly, frequency list, lists of objects and sources, number of updates, calls in between that only look and calls made afterwards; for the cross sections closed grids, objects of simple media in the region and every solution of Maxwell's equations", "why_tests_cant": "The examples divide by this number for a sphere and compare with Mie theory by eye; that the line records both fields of the plane wave at the same time and place, so that the quotient converges for all signals and frequencies, is a statement about all grids.", "anchors": ["src/tfsf.cpp:43-81", "src/tfsf.cpp:119-131", "include/tfsf.h:29-60", "include/monitors/box_monitor.h:44-56"]}
{"id": "C105", "title": "Volume and surface monitors beside the total-field region record the scattered wave, in it the total wave", "statement": "In a program with an incident wave, what a volume monitor writes as spectra is, at every requested frequency, the spectra of the scattered wave of Maxwell's equations if none of its nodes is in the region of the incident wave, and the spectra of the sum of the scattered wave and the plane wave if its nodes are in the region. The flux that a surface monitor writes is the energy that flows through its line in the scattered wave or the total wave in the same way. The errors are bounded explicitly and vanish with the size of a cell.", "quantifier": "every closed grid, region, signal that starts smoothly, objects of passive simple media in the region, sources of Ez, solution of Maxwell's equations that starts from rest, monitor that does not cross the edge of the region, frequency list, number of updates, calls in between that only look and calls made afterwards", "why_tests_cant": "Users look at maps of scattered and total fields and at transmitted energy for their own bodies; whether these are the fields of Maxwell's equations, to which order and up to which node of the region, is a statement about all grids, bodies and signals.", "anchors": ["src/dft.cpp:75-100", "include/monitors/volume_monitor.h:66-68", "src/field2.cpp:122-197", "include/monitors/surface_monitor.h:94-130", "include/monitors/surface_monitor.h:165-176", "src/monitors/flux.cpp:20-35", "src/field2.cpp:252-281", "include/monitors/box_monitor.h:16-53", "src/tfsf.cpp:32-105"]}
{"id": "C106", "title": "Scattering by Debye and Drude bodies converges to Maxwell's equations with the polarization current of the total field", "statement": "In a program with an incident wave and bodies of simple, Debye or Drude media in its region, the fields are, up to an explicitly bounded error that vanishes with the size of a cell, the sum of the plane wave (in the region only) and a scattered wave. The scattered wave solves Maxwell's equations with the current that the plane wave induces in the medium without delay and with a polarization current that follows the law of the medium in the sum of both fields.", "quantifier": "every closed grid, region, signal that starts smoothly, list of objects of passive media of at most one pole that do not cover one another and lie in the region, sources of Ez outside the media with memory, solution of Maxwell's equations that starts from rest, number of updates", "why_tests_cant": "Scattering by metals is what the incident wave is used for; comparisons with known solutions exist for few shapes and signals only. That the auxiliary currents react to the incident wave as to any other field is a statement about all bodies, signals and grids.", "anchors": ["src/materials/debye_polarization.cpp:26-38", "src/materials/drude_polarization.cpp:26-38", "src/field2.cpp:122-197", "src/sources/point_source.cpp:15-18", "src/tfsf.cpp:32-105", "src/object.cpp:1-78"]}
{"id": "C107", "title": "Monitors near Debye and Drude bodies in an incident wave record the scattered and the total wave, and metals supply no energy", "statement": "In a program with an incident wave and bodies of simple, Debye or Drude media in its region: a box monitor around the region writes the energy that the scattered wave carries away; one in the region writes the energy that the sum of the scattered wave and the plane wave carries out of the box, which, once the field has faded, is minus the energy that the field gives to conductors, to the polarization currents and to sources; without sources in the box it is not positive. Volume and surface monitors write the spectra of the scattered wave beside the region and of the total wave in it. Divided by the flux of the incident wave the fluxes are cross sections. All up to explicitly bounded errors.", "quantifier": "every closed grid, region, signal that starts smoothly, objects and sources as in C106, monitor beside or in the region, list of frequencies, number of updates", "why_tests_cant": "The spectra of scattering and absorption by metals are the results for which the program is used; a test fixes a shape, a medium and a grid and compares a few numbers with a tolerance.", "anchors": ["include/monitors/box_monitor.h:16-53", "src/monitors/flux.cpp:20-35", "src/tfsf.cpp:32-105", "src/field2.cpp:122-197", "src/tfsf.cpp:43-81", "src/tfsf.cpp:119-131", "include/tfsf.h:29-60", "include/monitors/box_monitor.h:44-56", "src/dft.cpp:75-100", "include/monitors/volume_monitor.h:66-68", "include/monitors/surface_monitor.h:94-130", "include/monitors/surface_monitor.h:165-176", "src/field2.cpp:252-281", "src/materials/debye_polarization.cpp:26-38", "src/materials/drude_polarization.cpp:26-38", "src/sources/point_source.cpp:15-18", "src/object.cpp:1-78"]}
{"id": "C108", "title": "Force and torque of box monitors near Debye and Drude bodies in an incident wave are the push of light on them", "statement": "In a program with an incident wave and bodies of simple, Debye or Drude media in its region: dt^2 times the force and the torque that a box monitor around the region writes is the flow of momentum and of angular momentum of the scattered wave; in the region it is that of the total wave, and once the field in the box has faded it is the Lorentz force, and its moment about the centre, of the total field on the currents in the box, among them the polarization currents of the media with memory. All up to explicitly bounded errors.", "quantifier": "every closed grid, region, signal that starts smoothly, objects and sources as in C106, box monitor of all components around or in the region, list of frequencies, number of updates", "why_tests_cant": "The force of light on a metal body has a known value for few shapes and in the limit of fine grids only; that the integral of the stress tensor over the box is the force on what is in it holds for all bodies, boxes and signals.", "anchors": ["src/monitors/force.cpp:31-58", "src/monitors/force.cpp:60-89", "include/monitors/box_monitor.h:77-95", "include/monitors/surface_monitor.h:217-246", "src/materials/debye_polarization.cpp:26-38", "src/materials/drude_polarization.cpp:26-38", "src/field2.cpp:122-197", "src/sources/point_source.cpp:15-18", "src/tfsf.cpp:32-105", "src/object.cpp:1-78"]}
