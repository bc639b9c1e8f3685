{
 "claims": [
  {
   "property": "C01",
   "status": "proved",
   "theorems": [
    "Qbox.Props.C01_index_roundtrip",
    "Qbox.Props.C01_position_roundtrip",
    "Qbox.Props.C01_nearest"
   ],
   "note": "Exact arithmetic (Scalar \u211d); double rounding is not modelled."
  },
  {
   "property": "C02",
   "status": "proved",
   "theorems": [
    "Qbox.Props.C02_covers",
    "Qbox.Props.C02_domain_corners",
    "Qbox.Props.C02_nodes_iff_domain",
    "Qbox.Props.C02_courant",
    "Qbox.Props.C02_header_comment_false"
   ],
   "note": "Exact arithmetic. C02_header_comment_false shows that the comment `Nx*dx = Lx` in grid.h is not what the code does."
  },
  {
   "property": "C03",
   "status": "partial",
   "theorems": [
    "Qbox.Props.C03_false",
    "Qbox.Props.C03_false_bottom",
    "Qbox.Props.C03_false_inside",
    "Qbox.Props.C03_keeps_nodes_partial",
    "Qbox.Props.C03_clip_partial",
    "Qbox.Props.C03_guard_necessary"
   ],
   "note": "The full statement (C03_statement) is false for the code: clip tests the wrong components. Negations proved on witnesses, the restriction that does hold is proved with its guard."
  },
  {
   "property": "C04",
   "status": "proved",
   "theorems": [
    "Qbox.Props.C04_box_contour"
   ],
   "note": "Exact arithmetic."
  },
  {
   "property": "C05",
   "status": "proved",
   "theorems": [
    "Qbox.Props.C05_throws_iff",
    "Qbox.Props.C05_no_ub",
    "Qbox.Props.C05_frame",
    "Qbox.Props.C05_isurface_outcome",
    "Qbox.Props.C05_to_grid",
    "Qbox.Props.C05_short_surface_ub"
   ],
   "note": "Real and integer surfaces; integer surfaces of length zero divide by zero (undefined behaviour), shown explicitly."
  },
  {
   "property": "C06",
   "status": "proved",
   "theorems": [
    "Qbox.Props.C06_occupied",
    "Qbox.Props.C06_move",
    "Qbox.Props.C06_rotate",
    "Qbox.Props.C06_history",
    "Qbox.Props.C06_order_irrelevant"
   ],
   "note": "Exact arithmetic."
  },
  {
   "property": "C07",
   "status": "proved",
   "theorems": [
    "Qbox.Props.C07_block",
    "Qbox.Props.C07_ellipse",
    "Qbox.Props.C07_cylinder",
    "Qbox.Props.C07_all",
    "Qbox.Props.C07_history",
    "Qbox.Props.C07_cylinder_negative_radius_false"
   ],
   "note": "Exact arithmetic. Outside the quantifier: a negative cylinder radius is accepted by the constructor and the box is then wrong (C07_cylinder_negative_radius_false); an ellipse with a zero radius divides by zero."
  },
  {
   "property": "C08",
   "status": "proved",
   "theorems": [
    "Qbox.Props.C08_monitor_box"
   ],
   "note": "Exact arithmetic; buffer is in length units in the code."
  },
  {
   "property": "C09",
   "status": "proved",
   "theorems": [
    "Qbox.Props.C09_refresh_any",
    "Qbox.Props.C09_last_object_wins",
    "Qbox.Props.C09_adding",
    "Qbox.Props.C09_total"
   ],
   "note": "C09_refresh_any: from ANY earlier state, a successful update_material_grid leaves every node with the coefficients of the last added object containing it, else of the background; C09_adding: same after the adds themselves; C09_total: with objects clear of the unguarded edges the refresh cannot fault."
  },
  {
   "property": "C10",
   "status": "partial",
   "theorems": [
    "Qbox.Props.C10_faults_iff",
    "Qbox.Props.C10_right_edge_faults",
    "Qbox.Props.C10_bottom_edge_faults",
    "Qbox.Props.C10_guarded_edges_partial",
    "Qbox.Props.C10_no_box_partial",
    "Qbox.Props.C10_false",
    "Qbox.Props.C10_statement"
   ],
   "note": "False as stated: grid.clip only clips two of the four sides, so an object crossing the right or bottom edge writes out of bounds (exact characterisation C10_faults_iff and two witnesses). C10_guarded_edges_partial: true for the two guarded edges; C10_no_box_partial: true for objects without a bounding box (which are scanned over the whole grid)."
  },
  {
   "property": "C100",
   "status": "proved",
   "theorems": [
    "Qbox.Props.C100_exact",
    "Qbox.Props.C100_scattering",
    "Qbox.Props.C100_order",
    "Qbox.Props.C100_vanishes"
   ],
   "note": "Simple media (permittivity and conductivity), exact arithmetic; convergence in closed domains without absorbing layer. C100_order and C100_vanishes say how fast the bound vanishes with the size of the cells. Debye and Drude objects in an incident wave: C106; Lorentz media are covered by C83 exactly but not by a limit."
  },
  {
   "property": "C101",
   "status": "proved",
   "theorems": [
    "Qbox.Props.C101_scattered",
    "Qbox.Props.C101_total",
    "Qbox.Props.C101_absorption",
    "Qbox.Props.C101_passive",
    "Qbox.Props.C101_program"
   ],
   "note": "Closed domains without absorbing layer, simple media, boxes that do not touch the edge of the region, exact arithmetic. The statement is about dt^2 times the numbers in the file: the code sums without the factor dt. C101_program shows that such programs run to the end."
  },
  {
   "property": "C102",
   "status": "proved",
   "theorems": [
    "Qbox.Props.C102_simple",
    "Qbox.Props.C102_dispersive",
    "Qbox.Props.C102_lorentz",
    "Qbox.Props.C102_scattered",
    "Qbox.Props.C102_total",
    "Qbox.Props.C102_program",
    "Qbox.Props.C102_lit_program",
    "Qbox.Props.C102_order"
   ],
   "note": "Closed domains without absorbing layer, monitors of all components, boxes that do not touch the edge of the region, exact arithmetic. The statement is about dt^2 times the numbers in the file: the code sums without the factor dt. The error of the fields enters divided by the root of the size of a cell. C102_program and C102_lit_program show that such programs run to the end. C102_order gives the order of the error in the size of the cells."
  },
  {
   "property": "C103",
   "status": "proved",
   "theorems": [
    "Qbox.Props.C103_simple",
    "Qbox.Props.C103_dispersive",
    "Qbox.Props.C103_lorentz",
    "Qbox.Props.C103_total",
    "Qbox.Props.C103_empty",
    "Qbox.Props.C103_empty_lit"
   ],
   "note": "Closed domains without absorbing layer, monitors of all components, exact arithmetic; the statement is about dt^2 times the numbers in the file, as in C102. That the wave has no magnetic charges is a hypothesis on the wave; every field of a potential satisfies it (potential_tame)."
  },
  {
   "property": "C104",
   "status": "proved",
   "theorems": [
    "Qbox.Props.C104_incident",
    "Qbox.Props.C104_first_order",
    "Qbox.Props.C104_scattering",
    "Qbox.Props.C104_absorption",
    "Qbox.Props.C104_program"
   ],
   "note": "Exact arithmetic. The signal is asked to have five derivatives and to be zero before the start, and frequencies must have been requested (C52: the call is undefined otherwise). The statement about the incident wave holds also with an absorbing layer; the cross sections are for closed domains, as C101."
  },
  {
   "property": "C105",
   "status": "proved",
   "theorems": [
    "Qbox.Props.C105_scattered",
    "Qbox.Props.C105_total",
    "Qbox.Props.C105_flux_scattered",
    "Qbox.Props.C105_flux_total",
    "Qbox.Props.C105_volume_program",
    "Qbox.Props.C105_line_program"
   ],
   "note": "Exact arithmetic, closed domains, simple media, as C100. The upper row of nodes of the region is left out of the total field, as Hx above it is outside of the region; a surface monitor reads the nodes one to the left of and below its line too, so these count."
  },
  {
   "property": "C106",
   "status": "proved",
   "theorems": [
    "Qbox.Props.C106_scattering",
    "Qbox.Props.C106_order",
    "Qbox.Props.C106_vanishes"
   ],
   "note": "Exact arithmetic, closed domains, Debye and Drude media of at most one pole, objects that do not cover one another, as C85 and C100. plasma_scatters is a case with a disc of plasma in which neither the scattered wave nor the polarization current is zero. C106_order: second order where the solution is smooth everywhere; C106_vanishes: order one half if it is not smooth at the edges of bodies."
  },
  {
   "property": "C107",
   "status": "proved",
   "theorems": [
    "Qbox.Props.C107_scattered",
    "Qbox.Props.C107_total",
    "Qbox.Props.C107_absorption",
    "Qbox.Props.C107_passive",
    "Qbox.Props.C107_spectra_scattered",
    "Qbox.Props.C107_spectra_total",
    "Qbox.Props.C107_flux_scattered",
    "Qbox.Props.C107_flux_total",
    "Qbox.Props.C107_scattering_section",
    "Qbox.Props.C107_absorption_section",
    "Qbox.Props.C107_order"
   ],
   "note": "Exact arithmetic, closed domains, Debye and Drude media of at most one pole, as C106. glow_scatters and the cases beside it show programs with a disc of plasma for the box around the region, boxes, volumes and lines in it and the scattering cross section; C107_absorption is shown through C107_passive. In the fluxes the error of the fields enters divided by the root of the size of a cell, so they converge if it is of more than order one half (C106_order). C107_order gives the order of the error in the size of the cells."
  },
  {
   "property": "C108",
   "status": "proved",
   "theorems": [
    "Qbox.Props.C108_scattered",
    "Qbox.Props.C108_total",
    "Qbox.Props.C108_force",
    "Qbox.Props.C107_order"
   ],
   "note": "Exact arithmetic, closed domains, Debye and Drude media of at most one pole, monitors of all components; the statement is about dt^2 times the numbers in the file, as in C102 and C103. The last case in LitMetalCases is a disc of plasma in a flash. The error of the fields enters divided by the root of the size of a cell, as in C107. C107_order gives the order of the error in the size of the cells."
  },
  {
   "property": "C11",
   "status": "proved",
   "theorems": [
    "Qbox.Props.C11_order_irrelevant"
   ],
   "note": ""
  },
  {
   "property": "C12",
   "status": "partial",
   "theorems": [
    "Qbox.Props.C12_debye_refresh",
    "Qbox.Props.C12_drude_refresh",
    "Qbox.Props.C12_lorentz_refresh",
    "Qbox.Props.C12_debye_after_clear_partial",
    "Qbox.Props.C12_drude_after_clear_partial",
    "Qbox.Props.C12_lorentz_after_clear_partial",
    "Qbox.Props.C12_debye_adding_partial",
    "Qbox.Props.C12_drude_adding_partial",
    "Qbox.Props.C12_lorentz_adding_partial",
    "Qbox.Props.C12_debye_ghost",
    "Qbox.Props.C12_drude_ghost",
    "Qbox.Props.C12_lorentz_ghost",
    "Qbox.Props.C12_false",
    "Qbox.Props.C12_statement"
   ],
   "note": "False as stated: update_material_grid never erases the polarization strength at nodes an object has left (ghost theorems). What holds: every node inside is active (refresh), exactly those are active when the fields were cleared before or when objects are only added."
  },
  {
   "property": "C13",
   "status": "proved",
   "theorems": [
    "Qbox.Props.C13_electric_loop",
    "Qbox.Props.C13_magnetic_loop",
    "Qbox.Props.C13_layer_loops"
   ],
   "note": "Any permutation of the visiting order gives the same state and each node receives the simultaneous update; for every scalar type, so for every rounding."
  },
  {
   "property": "C14",
   "status": "proved",
   "theorems": [
    "Qbox.Props.C14_histories",
    "Qbox.Props.C14_no_undefined_behaviour",
    "Qbox.Props.C14_stepping_safe",
    "Qbox.Props.C14_surface_monitor",
    "Qbox.Props.C14_cylinder_monitor",
    "Qbox.Props.C14_guard_necessary"
   ],
   "note": "C14_histories: every list of API calls (adding and posing objects, refreshing, sources, region, monitors, time monitors, stepping, output, subtraction, clearing), whichever of them throw, in which monitors are subtracted only from monitors of the same shape (Matched; otherwise undefined, C87_undefined), never accesses an array out of bounds; the only undefined behaviour left is the dangling reference of point monitors (C43). Real arithmetic for rounding positions to nodes; overflow of the int step counter is not represented."
  },
  {
   "property": "C15",
   "status": "proved",
   "theorems": [
    "Qbox.Props.C15_step",
    "Qbox.Props.C15_superposition",
    "Qbox.Props.C15_fields"
   ],
   "note": "Superposition of the complete step (fields, absorbing-layer memory, polarization currents, total-field line, sources) and of any number of steps, over the reals."
  },
  {
   "property": "C16",
   "status": "proved",
   "theorems": [
    "Qbox.Props.C16_locality",
    "Qbox.Props.C16_front"
   ],
   "note": "For every Scalar K (no arithmetic laws used): any well-formed pair of states agreeing within distance r+n (fields, coefficients, layer memory, polarizations), sources differing only outside that distance; after n updates agreement within r. C16_front: corollary for sources in a silent simulation at real arithmetic."
  },
  {
   "property": "C17",
   "status": "proved",
   "theorems": [
    "Qbox.Props.C17_silence"
   ],
   "note": "A silent state with silent sources stays silent for any number of steps."
  },
  {
   "property": "C18",
   "status": "partial",
   "theorems": [
    "Qbox.Props.C18_balance",
    "Qbox.Props.C18_definite",
    "Qbox.Props.C18_closed",
    "Qbox.Props.C18_all_time",
    "Qbox.Props.C18_confined_partial"
   ],
   "note": "Exact arithmetic. C18_balance: for every state, every rectangle beyond the layer filled with conducting dielectrics and free of sources, one update changes the discrete energy by exactly the Poynting flow through the frame and the heat. C18_definite: at dt = dx/2 the energy is at least 1/8 of the sum of squares (permittivity >= 1, quiet frame). C18_closed / C18_all_time: without absorbing layer (constructor argument pml_thickness = -1, stored 0) the energy of the whole grid never grows, is conserved without conductivity, and bounds the field for every number of steps, for any objects of simple materials and any field. C18_confined_partial: with a layer, as long as the field has not crossed the rectangle. Missing: a bound for all time once the field is in the absorbing layer, rounding. Dispersive media: C72. Sources acting: C70."
  },
  {
   "property": "C19",
   "status": "proved",
   "theorems": [
    "Qbox.Props.C19_exchange",
    "Qbox.Props.C19_construct",
    "Qbox.Props.C19_sources"
   ],
   "note": "Exact arithmetic (model over the reals). Whole update (main loops, layer, dispersive currents, sources), any number of steps, no total-field region (which is x-aligned by construction). Not exhibited: rounding, which may differ because the exchanged curl adds its terms in the other order."
  },
  {
   "property": "C20",
   "status": "partial",
   "theorems": [
    "Qbox.Props.C20_left_right_partial",
    "Qbox.Props.C20_bottom_top_partial",
    "Qbox.Props.C20_not_mirror_symmetric"
   ],
   "note": "False as stated: the magnetic loop starts at index 1 (src/field2.cpp:177-183), so the left column of Hy and the bottom row of Hx are never updated; C20_not_mirror_symmetric is the witness. Proved instead, left-right and bottom-top, with point and line sources: mirror images agree at all nodes at least n columns (rows) from the edges after n updates. No total-field region (its wave travels in one direction). Exact arithmetic; rounding not exhibited."
  },
  {
   "property": "C21",
   "status": "proved",
   "theorems": [
    "Qbox.Props.C21_interior",
    "Qbox.Props.C21_any_arithmetic",
    "Qbox.Props.C21_coefficients",
    "Qbox.Props.C21_tight"
   ],
   "note": "Closed interior in exact arithmetic from every reachable state; strictly inside in any arithmetic. Coefficient bounds over the reals."
  },
  {
   "property": "C22",
   "status": "proved",
   "theorems": [
    "Qbox.Props.C22_steps",
    "Qbox.Props.C22_time"
   ],
   "note": "C22_steps holds for every arithmetic and every history including calls that throw: the counter, and the time as that many additions of dt to zero. C22_time is the product form in exact arithmetic (in floating point the repeated addition rounds, and int tStep would overflow after 2^31 updates; neither is represented)."
  },
  {
   "property": "C23",
   "status": "proved",
   "theorems": [
    "Qbox.Props.C23_observers",
    "Qbox.Props.C23_inside",
    "Qbox.Props.make_aligned"
   ],
   "note": "C23_observers: for two histories of the same grid with the same calls once the observing ones are left out, including histories in which calls throw: equal physical states. The hypothesis that surfaces of monitors are parallel to an axis is what the constructor guarantees (make_aligned). C23_inside: all histories inside the domain run and meet the hypotheses."
  },
  {
   "property": "C24",
   "status": "proved",
   "theorems": [
    "Qbox.Props.C24_unique",
    "Qbox.Props.C24_step"
   ],
   "note": "C24_unique: the Ca/Cb update is the unique solution and |Ca| <= 1. C24_step: along any run of complete updates every node in a simple medium, clear of layer, sources and TFSF faces, obeys the law (as long as no Lorentz material is present, see C28). Exact arithmetic."
  },
  {
   "property": "C25",
   "status": "partial",
   "theorems": [
    "Qbox.Props.C25_partial",
    "Qbox.Props.C25_single_partial",
    "Qbox.Props.C25_run",
    "Qbox.Props.C25_false"
   ],
   "note": "False for two or more poles (C25_false): poles are processed one after the other, each seeing a half-updated E. C25_partial gives the exact deviation for any number of poles; C25_single_partial and C25_run prove the full law for one pole along any run. Exact arithmetic."
  },
  {
   "property": "C26",
   "status": "partial",
   "theorems": [
    "Qbox.Props.C26_partial",
    "Qbox.Props.C26_single_partial",
    "Qbox.Props.C26_run",
    "Qbox.Props.C26_false"
   ],
   "note": "As C25, for Drude materials."
  },
  {
   "property": "C27",
   "status": "partial",
   "theorems": [
    "Qbox.Props.C27_partial",
    "Qbox.Props.C27_single_partial",
    "Qbox.Props.C27_false"
   ],
   "note": "False already for one pole (C27_false): Ca_prev has denominator 2*eps+sum(delta) instead of 2*eps+sum(delta)/2. C27_partial gives the exact deviation from the unique solution for any number of poles; C27_single_partial: for one pole the oscillator equation is exact and Ampere fails unless the term vanishes. Exact arithmetic."
  },
  {
   "property": "C28",
   "status": "partial",
   "theorems": [
    "Qbox.Props.C28_debye_drude_partial",
    "Qbox.Props.C28_lorentz_leak",
    "Qbox.Props.C28_false"
   ],
   "note": "True for Debye and Drude objects (any run). False for Lorentz objects (C28_false): Ca_prev*E_prev is added at every node of the grid (C28_lorentz_leak gives the exact term). Exact arithmetic."
  },
  {
   "property": "C29",
   "status": "proved",
   "theorems": [
    "Qbox.Props.C29_drude_lorentz"
   ],
   "note": "Including exact deviation of alpha caused by the artificial restoring force 1e-40. Exact arithmetic."
  },
  {
   "property": "C30",
   "status": "partial",
   "theorems": [
    "Qbox.Props.C30_false",
    "Qbox.Props.C30_partial",
    "Qbox.Props.C30_mu_ignored"
   ],
   "note": "False: Db = dt whatever mu. Holds exactly for mu = 1 (C30_partial); mu has no effect on any simulation (C30_mu_ignored, any arithmetic)."
  },
  {
   "property": "C31",
   "status": "proved",
   "theorems": [
    "Qbox.Props.C31_point_source",
    "Qbox.Props.C31_nearest_node",
    "Qbox.Props.C31_sources_add_up",
    "Qbox.Props.C31_sources_commute",
    "Qbox.Props.C31_update"
   ],
   "note": "Structural theorems for every scalar type; additivity and commutation at the reals."
  },
  {
   "property": "C32",
   "status": "proved",
   "theorems": [
    "Qbox.Props.C32_line_source",
    "Qbox.Props.C32_degenerate"
   ],
   "note": ""
  },
  {
   "property": "C33",
   "status": "proved",
   "theorems": [
    "Qbox.Props.C33_no_leak",
    "Qbox.Props.C33_no_leak_new",
    "Qbox.Props.C33_line",
    "Qbox.Props.C33_no_echo_yet",
    "Qbox.Props.lineWave_exists"
   ],
   "note": "Exact arithmetic (rounding not modelled). Region clear of the absorbing layer (nodes strictly between the layers), vacuum, no other source. The incident wave is the solution of the one-dimensional scheme LineWave (Spec/IncidentSpec), which exists for every signal."
  },
  {
   "property": "C34",
   "status": "proved",
   "theorems": [
    "Qbox.Props.C34_safe",
    "Qbox.Props.C34_run",
    "Qbox.Props.C34_distance_needed"
   ],
   "note": "Any arithmetic. int is modelled as unbounded integers."
  },
  {
   "property": "C35",
   "status": "partial",
   "theorems": [
    "Qbox.Props.C35_fourier_sum_partial",
    "Qbox.Props.C35_counted_sum",
    "Qbox.Props.C35_repeat_once",
    "Qbox.Props.C35_time_zero_dropped"
   ],
   "note": "Full statement false: a first sample at time 0 is dropped because a new transform remembers time 0 (C35_time_zero_dropped). C35_counted_sum is exact in any arithmetic; the real sum needs the first time to differ from 0."
  },
  {
   "property": "C36",
   "status": "partial",
   "theorems": [
    "Qbox.Props.C36_surface_partial",
    "Qbox.Props.C36_box_partial",
    "Qbox.Props.C36_cylinder_partial",
    "Qbox.Props.C36_volume_partial",
    "Qbox.Props.C36_false",
    "Qbox.Props.C36_dropped"
   ],
   "note": "False as stated: after clear_fields an update at the recorded time is dropped (C36_false, a history of calls). Proved for every history of calls inside the domain without clear_fields after the monitor was added: surface, box, cylinder and volume monitors hold exactly one sample per update. Point monitors are undefined behaviour (C43)."
  },
  {
   "property": "C37",
   "status": "proved",
   "theorems": [
    "Qbox.Props.C37_difference",
    "Qbox.Props.C37_self",
    "Qbox.Props.C37_surface",
    "Qbox.Props.C37_flux",
    "Qbox.Props.C37_history",
    "Qbox.Props.C37_box",
    "Qbox.Props.C37_box_flux",
    "Qbox.Props.C54_difference"
   ],
   "note": "transform, surface monitor and box level; flux and far field of differences. Exact arithmetic. Monitors of different shape are the subject of C87. C37_self assumes distinct keys, as in any std::map."
  },
  {
   "property": "C38",
   "status": "partial",
   "theorems": [
    "Qbox.Props.C38_surface_partial",
    "Qbox.Props.C38_cylinder_partial",
    "Qbox.Props.C38_late_false"
   ],
   "note": "True for every history, point and component when the monitor is attached while the field at its points is zero and no two consecutive updates have the same time; false otherwise (C38_late_false)."
  },
  {
   "property": "C39",
   "status": "partial",
   "theorems": [
    "Qbox.Props.C39_bounded",
    "Qbox.Props.C39_convex_partial",
    "Qbox.Props.C39_affine_partial",
    "Qbox.Props.C39_magnetic_error",
    "Qbox.Props.C39_magnetic_exact_iff",
    "Qbox.Props.C39_stored_partial",
    "Qbox.Props.C39_defined",
    "Qbox.Props.C39_edge_undefined",
    "Qbox.Props.C39_false"
   ],
   "note": "Interpolation is a convex combination and exact for affine fields for Ez; for Hx, Hy the code shifts by dx cells instead of half a cell, so the affine claim is false there (C39_false, exact error in C39_magnetic_error). Over the reals."
  },
  {
   "property": "C40",
   "status": "partial",
   "theorems": [
    "Qbox.Props.C40_nodes_partial",
    "Qbox.Props.C40_reversed_false",
    "Qbox.Props.C40_reversed_oob"
   ],
   "note": "Proved for boxes given lower corner first. For reversed corners the recorded nodes are not those of the box (C40_reversed_false) and may be outside the arrays (C40_reversed_oob)."
  },
  {
   "property": "C41",
   "status": "proved",
   "theorems": [
    "Qbox.Props.C41_flux",
    "Qbox.Props.C41_reverse",
    "Qbox.Props.C41_scale",
    "Qbox.Props.C41_box",
    "Qbox.Props.C41_uniform",
    "Qbox.Props.C41_flux_history",
    "Qbox.Props.C41_uniform_history",
    "Qbox.Props.C41_uniform_box",
    "Qbox.Props.C41_cylinder",
    "Qbox.Props.C41_cylinder_uniform",
    "Qbox.Props.C41_cylinder_history"
   ],
   "note": "flux of surface, box and cylinder monitors equals the sum of the Poynting vector dotted with the outward normal; over the reals"
  },
  {
   "property": "C42",
   "status": "partial",
   "theorems": [
    "Qbox.Props.C42_force",
    "Qbox.Props.C42_torque",
    "Qbox.Props.C42_reverse",
    "Qbox.Props.C42_box_force",
    "Qbox.Props.C42_uniform_force",
    "Qbox.Props.C42_box_torque",
    "Qbox.Props.C42_uniform_torque",
    "Qbox.Props.C42_force_history",
    "Qbox.Props.C42_uniform_history_partial",
    "Qbox.Props.C42_uniform_box_partial",
    "Qbox.Props.C42_uniform_torque_false",
    "Qbox.Props.C42_cylinder_force",
    "Qbox.Props.C42_cylinder_uniform_force",
    "Qbox.Props.C42_cylinder_torque_undefined"
   ],
   "note": "force proved; the torque of a uniform field vanishes only for boxes a whole number of cells wide and high (counterexample C42_uniform_torque_false); the torque of a cylinder monitor is undefined behaviour (dangling Eigen expression)"
  },
  {
   "property": "C43",
   "status": "partial",
   "theorems": [
    "Qbox.Props.C43_centred_partial",
    "Qbox.Props.C43_dangling"
   ],
   "note": "False: every point monitor reads a dead stack variable at its first update (C43_dangling). Partial: what it records if that storage still held the node."
  },
  {
   "property": "C44",
   "status": "proved",
   "theorems": [
    "Qbox.Props.C44_every",
    "Qbox.Props.C44_never",
    "Qbox.Props.C44_wrapped",
    "Qbox.Props.C44_overflow"
   ],
   "note": "The answers of the repeat counter for any number of calls, plus what happens for n >= 2^31."
  },
  {
   "property": "C45",
   "status": "partial",
   "theorems": [
    "Qbox.Props.C45_snapshots_partial",
    "Qbox.Props.C45_count",
    "Qbox.Props.C45_reversed_false",
    "Qbox.Props.C45_reversed_oob"
   ],
   "note": "For every exception-free program and every shape except boxes given with reversed corners. Reversed corners: the rows hold the nodes above the box (C45_reversed_false) or the write reads outside the array (C45_reversed_oob). A surface monitor covers the nodes up to the one before its last end. HDF5 itself is modelled as lists of rows."
  },
  {
   "property": "C46",
   "status": "proved",
   "theorems": [
    "Qbox.Props.C46_fields",
    "Qbox.Props.C46_snapshots"
   ],
   "note": "For every program none of whose calls throws (C57_completes says which programs these are at least). HDF5 itself is modelled as lists of rows."
  },
  {
   "property": "C47",
   "status": "partial",
   "theorems": [
    "Qbox.Props.C47_names_distinct_partial",
    "Qbox.Props.C47_defined",
    "Qbox.Props.C47_time_monitor_false"
   ],
   "note": "False for DFT monitors against time monitors: two counters share the prefix monitor_ (C47_time_monitor_false). Distinctness is proved for everything else, for any sequence of creations."
  },
  {
   "property": "C48",
   "status": "proved",
   "theorems": [
    "Qbox.Props.C48_clocks",
    "Qbox.Props.C48_no_clock_error"
   ],
   "note": "Every history of successful calls from construction, every non-decreasing clock. Conversion to seconds is exact here."
  },
  {
   "property": "C49",
   "status": "partial",
   "theorems": [
    "Qbox.Props.C49_stuck",
    "Qbox.Props.C49_false",
    "Qbox.Props.C49_others_partial"
   ],
   "note": "False: the loop clock is left running, every later update throws and still advances the time (C49_stuck, for every such simulation; C49_false, witness). C49_others_partial: the calls other than update stay usable."
  },
  {
   "property": "C50",
   "status": "partial",
   "theorems": [
    "Qbox.Props.C50_restart_partial",
    "Qbox.Props.C50_before_layer",
    "Qbox.Props.C50_both_needed",
    "Qbox.Props.C50_layer_false",
    "Qbox.Props.C50_dispersion_false",
    "Qbox.Props.C50_debye_off"
   ],
   "note": "False as stated, two independent ways. C50_layer_false: clear_fields does not clear what the absorbing layer remembers (psi and the convolution terms of src/pml.cpp), so after a history that reached the layer later fields differ from a fresh run. C50_dispersion_false: clear_fields calls reset() of the polarizations, which zeroes the pole strengths, so dispersive objects lose their dispersion (C50_debye_off: a Debye node then follows the plain conductive law). C50_both_needed: the two conditions together suffice; the two counterexamples show neither can be dropped. C50_restart_partial: with no dispersive object and an empty layer memory the later fields, time and step count equal those of a fresh run with the same objects, sources and region, for every history before and every history after (every scalar type). C50_before_layer: the layer condition holds whenever the disturbance has had no time to reach the layer (real arithmetic)."
  },
  {
   "property": "C51",
   "status": "partial",
   "theorems": [
    "Qbox.Props.C51_false",
    "Qbox.Props.C51_named_partial"
   ],
   "note": "False: the constructor dereferences the null output file. With a file name construction and any number of updates succeed."
  },
  {
   "property": "C52",
   "status": "partial",
   "theorems": [
    "Qbox.Props.C52_flux_partial",
    "Qbox.Props.C52_undefined_without_freq"
   ],
   "note": "Full statement false: without requested frequencies flux() has undefined behaviour (no return). With frequencies the spectrum is proved for every number of steps, in exact arithmetic."
  },
  {
   "property": "C53",
   "status": "proved",
   "theorems": [
    "Qbox.Props.C53_own_copy",
    "Qbox.Props.C53_pulse_spares_user",
    "Qbox.Props.C53_spectrum"
   ],
   "note": "Aliasing: heap model refined to value semantics, any arithmetic. Spectrum: exact arithmetic, from time >= 0 with positive time step."
  },
  {
   "property": "C54",
   "status": "proved",
   "theorems": [
    "Qbox.Props.C54_formula",
    "Qbox.Props.C54_linear",
    "Qbox.Props.C54_box",
    "Qbox.Props.C54_cylinder",
    "Qbox.Props.C54_cylinder_linear",
    "Qbox.Props.C54_difference"
   ],
   "note": "exact complex formula, superposition and differences for surface and cylinder monitors, box as sum of four faces; exact arithmetic; observation points away from the centre and positive frequencies (elsewhere the code divides by zero)"
  },
  {
   "property": "C55",
   "status": "partial",
   "theorems": [
    "Qbox.Props.C55_resolution_false",
    "Qbox.Props.C55_facing",
    "Qbox.Props.C55_additive_partial"
   ],
   "note": "False: the sum lacks the length element, doubling the resolution doubles the far field (C55_resolution_false). What holds: contributions add up along the monitor (C55_additive_partial)."
  },
  {
   "property": "C56",
   "status": "partial",
   "theorems": [
    "Qbox.Props.C56_direction_false",
    "Qbox.Props.C56_travelling",
    "Qbox.Props.C56_reversed_partial"
   ],
   "note": "False: the transform uses exp(+i omega t) but ntff the phases of the opposite convention, so a wave cancels for the observer it travels to and is collected in phase behind it (C56_direction_false; C56_travelling gives the recorded spectrum of a travelling wave). Holds with the directions exchanged (C56_reversed_partial)."
  },
  {
   "property": "C57",
   "status": "proved",
   "theorems": [
    "Qbox.Props.C57_completes",
    "Qbox.Props.C57_name_taken"
   ],
   "note": "Monitor subtraction is excluded. HDF5 failures other than name clashes (disk full and so on) are not represented; the wall clock is an arbitrary function."
  },
  {
   "property": "C58",
   "status": "partial",
   "theorems": [
    "Qbox.Props.C58_recentred_partial",
    "Qbox.Props.C58_xgrid_Hx_false",
    "Qbox.Props.C58_defined",
    "Qbox.Props.C58_border_undefined"
   ],
   "note": "Proved for every case except to_xgrid of Hx, for which it is false: the samples around another point are averaged. Over the reals."
  },
  {
   "property": "C59",
   "status": "partial",
   "theorems": [
    "Qbox.Props.C59_box_partial",
    "Qbox.Props.C59_cylinder_partial",
    "Qbox.Props.C59_box_repeats",
    "Qbox.Props.C59_cylinder_repeats",
    "Qbox.Props.C59_directions_false",
    "Qbox.Props.C59_sum",
    "Qbox.Props.C59_defined"
   ],
   "note": "The first N-1 directions are as claimed; the last repeats the first. Over the reals; LinSpaced is modelled by its documented values."
  },
  {
   "property": "C60",
   "status": "partial",
   "theorems": [
    "Qbox.Props.C60_plain_any",
    "Qbox.Props.C60_hidden_partial",
    "Qbox.Props.C60_debye_effect",
    "Qbox.Props.C60_drude_effect",
    "Qbox.Props.C60_false"
   ],
   "note": "Proved for hidden objects of non-dispersive materials (the whole state is the same, for every scalar type). False for dispersive ones: their poles stay active under the covering object."
  },
  {
   "property": "C61",
   "status": "partial",
   "theorems": [
    "Qbox.Props.C61_names_partial",
    "Qbox.Props.C61_plain_any",
    "Qbox.Props.C61_any_order_partial",
    "Qbox.Props.C61_same_name_effect",
    "Qbox.Props.C61_false",
    "Qbox.Props.C61_order_effect",
    "Qbox.Props.C61_order_false"
   ],
   "note": "Proved for whole programs (two runs in lockstep, for every scalar type) when the names of dispersive materials correspond one to one in the same order; names of non-dispersive materials are arbitrary. Proved in exact arithmetic for names in any order when there is one Lorentz medium; Debye and Drude media may overlap in any way. False when two dispersive materials share a name (the first one gives the poles of both) and when two Lorentz media exchange their names, even if they do not touch."
  },
  {
   "property": "C62",
   "status": "proved",
   "theorems": [
    "Qbox.Props.C62_kept",
    "Qbox.Props.C62_values"
   ],
   "note": "For every scalar type, every state and every program, exceptions included. The group fields is covered by the rows of its data sets. HDF5 itself is a map from paths to objects."
  },
  {
   "property": "C63",
   "status": "partial",
   "theorems": [
    "Qbox.Props.C63_first",
    "Qbox.Props.C63_recorded_partial",
    "Qbox.Props.C63_false"
   ],
   "note": "Proved when no two different materials have the same name. False otherwise: the file keeps the parameters of the first material of that name (what the file then has is C63_first)."
  },
  {
   "property": "C64",
   "status": "proved",
   "theorems": [
    "Qbox.Props.C64_trajectory",
    "Qbox.Props.C64_never_throws"
   ],
   "note": "For every scalar type and every program, exceptions included."
  },
  {
   "property": "C65",
   "status": "partial",
   "theorems": [
    "Qbox.Props.C65_unchanged_partial",
    "Qbox.Props.C65_object_painted",
    "Qbox.Props.C65_tfsf_replaced",
    "Qbox.Props.C65_second_disc",
    "Qbox.Props.C65_false"
   ],
   "note": "Proved for calls other than adding an object, set_tfsf and update. False for these: a refused object has been painted into the material grid, a refused plane wave has replaced the old one."
  },
  {
   "property": "C66",
   "status": "proved",
   "theorems": [
    "Qbox.Props.C66_no_failure",
    "Qbox.Props.C66_same_simulation",
    "Qbox.Props.C66_completes"
   ],
   "note": "For every scalar type; C66_completes at the reals, together with C57. Programs that write results are covered by C67 and C68."
  },
  {
   "property": "C67",
   "status": "partial",
   "theorems": [
    "Qbox.Props.C67_surface_partial",
    "Qbox.Props.C67_cylinder_partial",
    "Qbox.Props.C67_volume_partial",
    "Qbox.Props.C67_flux_partial",
    "Qbox.Props.C67_box_flux_partial",
    "Qbox.Props.C67_box_nothing",
    "Qbox.Props.C67_false"
   ],
   "note": "Proved in exact arithmetic for surface, cylinder and volume monitors and for the flux of surface and box monitors. False for write() of box monitors, which writes no data. Point monitors are undefined behaviour (C43)."
  },
  {
   "property": "C68",
   "status": "proved",
   "theorems": [
    "Qbox.Props.C68_object",
    "Qbox.Props.C68_source",
    "Qbox.Props.C68_monitor",
    "Qbox.Props.C68_tfsf",
    "Qbox.Props.C68_report",
    "Qbox.Props.C68_results"
   ],
   "note": "For every scalar type and every program between the two calls, exceptions included."
  },
  {
   "property": "C69",
   "status": "proved",
   "theorems": [
    "Qbox.Props.C69_signal",
    "Qbox.Props.C69_envelope",
    "Qbox.Props.C69_over",
    "Qbox.Props.C69_summable",
    "Qbox.Props.C69_converges"
   ],
   "note": "Exact arithmetic. The width must not be zero; the spectrum is recorded from time >= 0 with positive time step."
  },
  {
   "property": "C70",
   "status": "proved",
   "theorems": [
    "Qbox.Props.C70_driven",
    "Qbox.Props.C70_program",
    "Qbox.Props.C70_pulses"
   ],
   "note": "Exact arithmetic, simple (also conducting) materials. The constant is that of the specification (gain); C70_program covers every program that adds objects, then sources, then updates, with observing calls anywhere. With an absorbing layer and dispersive media: see C18."
  },
  {
   "property": "C71",
   "status": "proved",
   "theorems": [
    "Qbox.Props.C71_converges",
    "Qbox.Props.C71_interface"
   ],
   "note": "Exact arithmetic, grids without absorbing layer, simple (also conducting) materials, no sources. The walls are those of the program: electric on the right and upper edge, magnetic half a cell inside the left and lower edge (the loops of the H update start at 1). The start values are written into the public field arrays, as there is no call for that."
  },
  {
   "property": "C72",
   "status": "partial",
   "theorems": [
    "Qbox.Props.C72_closed",
    "Qbox.Props.C72_all_time_partial",
    "Qbox.Props.C72_bounded_partial",
    "Qbox.Props.C72_drude_false",
    "Qbox.Props.C72_lorentz_false",
    "Qbox.Props.C72_debye_false",
    "Qbox.Props.C72_three_false"
   ],
   "note": "Exact arithmetic, grids without absorbing layer, no sources. True for any arrangement of simple media, Debye media of at most two poles and Drude media of at most one pole (C72_closed: the energy with the stored part of the media never grows; C72_all_time_partial, C72_bounded_partial: it bounds the field for every number of updates). False as stated, and false with one pole more: C72_three_false gives a Debye medium of three poles beside a dielectric, C72_drude_false a two-pole Drude medium, C72_lorentz_false a one-pole Lorentz medium and C72_debye_false a Debye medium of eight poles without any other medium, all passive, whose field grows beyond every bound."
  },
  {
   "property": "C73",
   "status": "partial",
   "theorems": [
    "Qbox.Props.C73_round_trip",
    "Qbox.Props.C73_round_trip_double",
    "Qbox.Props.C73_nodes_partial",
    "Qbox.Props.C73_nodes_exact",
    "Qbox.Props.C73_extra_node",
    "Qbox.Props.C73_clock",
    "Qbox.Props.C73_clock_exact",
    "Qbox.Props.C73_tone"
   ],
   "note": "Arithmetic with rounding, in particular IEEE double precision without overflow and NaN. Positions and clock: true (indices up to 5e14, relative error 3nu of the clock, exact when the time step is a power of two). C73_tone: signal of continuous_time, given the accuracy of the sine of the library. Number of nodes: false as stated, C73_extra_node (0.07 x 100 gives 8 nodes, not 7); C73_nodes_partial: up to the rounding error of the product; C73_nodes_exact: right when the product is exact."
  },
  {
   "property": "C74",
   "status": "partial",
   "theorems": [
    "Qbox.Props.C74_rounding_partial",
    "Qbox.Props.C74_linear_partial",
    "Qbox.Props.C74_double_partial",
    "Qbox.Props.C74_driven_partial",
    "Qbox.Props.C74_driven_linear_partial",
    "Qbox.Props.C74_tone_partial"
   ],
   "note": "Every operation of the update and of the sources rounded, for any rounding with a relative and an absolute error bound, in particular IEEE double precision. C74_driven_partial: any sources with any signals (misheard: the difference of the signals of both programs); C74_tone_partial: continuous sources, everything in numbers. Not represented: overflow and NaN. Missing: absorbing layer, incident plane waves, dispersive media. The exact simulation has the same nodes inside the objects (SameObject) and drives the same nodes (SameSource); which nodes these are is decided before by the rounded arithmetic."
  },
  {
   "property": "C75",
   "status": "partial",
   "theorems": [
    "Qbox.Props.C75_start",
    "Qbox.Props.C75_total",
    "Qbox.Props.C75_double",
    "Qbox.Props.C75_driven_partial"
   ],
   "note": "C75_total: any arithmetic with rounding; C75_double: IEEE double precision, permittivities up to 16, up to a billion updates, start values rounded to the nearest double; C75_start: exact arithmetic with any start values; C75_driven_partial: any arithmetic with rounding and sources that carry a current, compared with the field the current radiates. Across the edge of an object the discretisation part is of lower order (crossedArea in cellError). Not represented: overflow and NaN. Missing: absorbing layer, incident wave, dispersive media, and a program whose rounding moves a node across the edge of an object (SameObject)."
  },
  {
   "property": "C76",
   "status": "proved",
   "theorems": [
    "Qbox.Props.C76_reciprocity",
    "Qbox.Props.C76_weighted",
    "Qbox.Props.C76_objects"
   ],
   "note": "Exact arithmetic. The two nodes lie beyond the absorbing layer; the layer itself is part of the theorem. C76_objects is for a new simulation with any objects clear of the unguarded edges, C76_reciprocity for any silent state."
  },
  {
   "property": "C77",
   "status": "partial",
   "theorems": [
    "Qbox.Props.C77_closed",
    "Qbox.Props.C77_partial",
    "Qbox.Props.C77_false"
   ],
   "note": "Exact arithmetic. Proved everywhere in a closed domain; with an absorbing layer, at the nodes that waves from the layer have not reached. False in the layer: a_max = 0.2 has the unit of a frequency, so the layer acts differently in another unit (C77_false)."
  },
  {
   "property": "C78",
   "status": "proved",
   "theorems": [
    "Qbox.Props.C78_window",
    "Qbox.Props.C78_domain"
   ],
   "note": "Exact arithmetic. C78_window for any two grids and any shift, also together with a change of the unit of length; C78_domain for one program text in two domains."
  },
  {
   "property": "C79",
   "status": "partial",
   "theorems": [
    "Qbox.Props.C79_partial",
    "Qbox.Props.C79_nan",
    "Qbox.Props.C79_false"
   ],
   "note": "The program is run in an arithmetic that is exact on numbers and follows IEEE 754 at infinities and NaN; overflow, rounding and the sign of zero are not represented. Proved for closed domains and layers of at least one cell, with the same values as in exact arithmetic, which also shows that x/0 = 0 in the reals hides nothing. False for pml_thickness = 0, where thickness - 1 = 0: row j is NaN after j updates whatever the program contains (C79_nan)."
  },
  {
   "property": "C80",
   "status": "proved",
   "theorems": [
    "Qbox.Props.C80_delay",
    "Qbox.Props.C80_quiet",
    "Qbox.Props.C80_postponed"
   ],
   "note": "Exact arithmetic; steps of the clock are exact multiples of dt. Fields Ez, Hx, Hy at all nodes."
  },
  {
   "property": "C81",
   "status": "partial",
   "theorems": [
    "Qbox.Props.C81_partial",
    "Qbox.Props.C81_false"
   ],
   "note": "False: only the envelope moves with T0, the carrier sin(2 pi f t) does not, and the pulse is cut off at the start of the program. C81_partial: the signal is the delayed one at all times exactly if f times the delay is an integer."
  },
  {
   "property": "C82",
   "status": "partial",
   "theorems": [
    "Qbox.Props.C82_poles_partial",
    "Qbox.Props.C82_with_partial",
    "Qbox.Props.C82_lorentz_order_false",
    "Qbox.Props.C82_lorentz_idle_false",
    "Qbox.Props.C82_false",
    "Qbox.Props.C82_split_false"
   ],
   "note": "Order and idle poles: proved for Debye and Drude media, with any overlaps and sources, after any number of updates; false for Lorentz media (two witnesses). A pole given in two parts: false, witness in a Debye medium (the fields differ from the third update on). Exact arithmetic."
  },
  {
   "property": "C83",
   "status": "partial",
   "theorems": [
    "Qbox.Props.C83_currents_partial",
    "Qbox.Props.C83_scattered_partial",
    "Qbox.Props.C83_zones_partial",
    "Qbox.Props.C83_false"
   ],
   "note": "Proved for objects of simple, Debye and Drude materials with any overlaps, also inside the absorbing layer, with any point and line sources and any incident wave, after any number of updates. False for Lorentz media: a grain that contains no node at all changes the field at every node. Exact arithmetic."
  },
  {
   "property": "C84",
   "status": "proved",
   "theorems": [
    "Qbox.Props.C84_start",
    "Qbox.Props.C84_radiates",
    "Qbox.Props.C84_behind",
    "Qbox.Props.C84_signals"
   ],
   "note": "C84_start: any start values; C84_radiates: from rest, any sources that carry the current up to delta; C84_behind: signals half a step behind the clock, second order; C84_signals: signals at the time of the clock, first order. The derivatives of the solution are assumed bounded away from the edges of objects (Smooth S), with a term of lower order for the cells the edges cross (crossedArea). Exact arithmetic; C75_driven_partial adds rounding."
  },
  {
   "property": "C85",
   "status": "proved",
   "theorems": [
    "Qbox.Props.C85_start",
    "Qbox.Props.C85_solves",
    "Qbox.Props.C85_behind",
    "Qbox.Props.C85_unfelt",
    "Qbox.Props.C85_unfelt_drude"
   ],
   "note": "C85_start: any start values; C85_solves: from rest, any sources that carry the current up to delta; C85_behind: from the solution, sources at all nodes outside the media with memory, half a step behind the clock, second order; C85_unfelt and C85_unfelt_drude: the exact law of the pole when a source acts inside, which is why the property asks for sources outside. The derivatives of the solution are assumed bounded away from the edges of objects (Smooth S), with a term of lower order for the cells the edges cross (crossedArea). Exact arithmetic."
  },
  {
   "property": "C86",
   "status": "partial",
   "theorems": [
    "Qbox.Props.C86_spectrum_partial",
    "Qbox.Props.C86_tone_partial",
    "Qbox.Props.C86_frequency",
    "Qbox.Props.C86_false"
   ],
   "note": "False as stated: the walls at the left and at the bottom are magnetic (no tangential H half a cell inside), so the domain rings below the lowest resonance of a metal box of its size (C86_false, every grid). Proved with the walls the program has: the complete spectrum for all start fields and all steps, each tone occurs alone, and the bound on the frequencies. One dielectric on all nodes; exact arithmetic."
  },
  {
   "property": "C87",
   "status": "partial",
   "theorems": [
    "Qbox.Props.C87_outcomes",
    "Qbox.Props.C87_partial",
    "Qbox.Props.C87_false",
    "Qbox.Props.C87_not_atomic",
    "Qbox.Props.C87_other_frequencies",
    "Qbox.Props.C87_undefined"
   ],
   "note": "False as stated: a component missing on the right throws after the components before it have been subtracted (C87_false, C87_not_atomic), other frequencies of the same number are subtracted without complaint (C87_other_frequencies), another number of frequencies is undefined behaviour (C87_undefined). Proved: what the call does in all cases (C87_outcomes), and that between monitors that agree everything is subtracted and nothing else changes (C87_partial, surface monitors)."
  },
  {
   "property": "C88",
   "status": "partial",
   "theorems": [
    "Qbox.Props.C88_partial",
    "Qbox.Props.C88_poles",
    "Qbox.Props.C88_never_refused",
    "Qbox.Props.C88_new_name",
    "Qbox.Props.C88_covering",
    "Qbox.Props.C88_false",
    "Qbox.Props.C88_joined",
    "Qbox.Props.C88_joined_iff",
    "Qbox.Props.C88_mispaired"
   ],
   "note": "False as stated: nothing compares the lengths, no material is ever refused (C88_never_refused), and arrays of different lengths end in undefined behaviour when the name is new or the object covers a node (C88_new_name, C88_covering, C88_false). drude_lorentz only needs the lengths to match in sum (C88_joined_iff) and pairs the wrong entries otherwise (C88_mispaired). Proved: with arrays of one length everything is as for the list of poles (C88_partial, C88_poles, C88_joined)."
  },
  {
   "property": "C89",
   "status": "proved",
   "theorems": [
    "Qbox.Props.C89_wave",
    "Qbox.Props.C89_speed",
    "Qbox.Props.C89_program"
   ],
   "note": "On rectangles beyond the absorbing layer, for nodes that nothing from outside the rectangle has reached (the rectangle shrinks by one node at each side per update); exact arithmetic. The frequency on the grid is at most |k|/sqrt(eps) and at least that times 1-(|k|dx)^2/24."
  },
  {
   "property": "C90",
   "status": "proved",
   "theorems": [
    "Qbox.Props.C90_plane",
    "Qbox.Props.C90_fresnel",
    "Qbox.Props.C90_program"
   ],
   "note": "Exact reflection and transmission on the grid for all angles with a propagating transmitted wave (C90_plane); the distance to Fresnel's coefficients is bounded for waves straight onto the plane (C90_fresnel). The plane lies half a cell to the left of the first node of the second medium. Total reflection is in C91."
  },
  {
   "property": "C91",
   "status": "proved",
   "theorems": [
    "Qbox.Props.C91_wave",
    "Qbox.Props.C91_plane",
    "Qbox.Props.C91_program",
    "Qbox.Props.C91_frequency",
    "Qbox.Props.C91_number",
    "Qbox.Props.C91_decay",
    "Qbox.Props.C91_metal",
    "Qbox.Props.C91_mirror"
   ],
   "note": "On rectangles beyond the absorbing layer, for nodes that nothing from outside the rectangle has reached; exact arithmetic. The permittivity is taken at (2/dt)tan(w dt/2), which C91_frequency compares with w; C91_number compares wave numbers of the grid with those of the continuum. Lorentz media and media of several poles are not covered. The start has fields and polarization currents of the wave in it."
  },
  {
   "property": "C92",
   "status": "proved",
   "theorems": [
    "Qbox.Props.C92_back",
    "Qbox.Props.C92_program",
    "Qbox.Props.C92_distinct"
   ],
   "note": "Lossless media are simple media without conductivity, Drude media of one pole without collisions and media without poles; no absorbing layer, no incident wave, no sources, exact arithmetic. At the nodes that an update changes, with quiet walls."
  },
  {
   "property": "C93",
   "status": "proved",
   "theorems": [
    "Qbox.Props.C93_solves",
    "Qbox.Props.C93_order"
   ],
   "note": "One Lorentz object of one pole on top of objects of simple media; no absorbing layer, no incident wave, exact arithmetic. The constant grows exponentially with time: C72 shows that without a limit of time the fields of such programs need not stay bounded."
  },
  {
   "property": "C94",
   "status": "proved",
   "theorems": [
    "Qbox.Props.C94_simple",
    "Qbox.Props.C94_dispersive",
    "Qbox.Props.C94_lorentz",
    "Qbox.Props.C94_program",
    "Qbox.Props.C94_order"
   ],
   "note": "Volume monitors in closed domains, no absorbing layer, no incident wave, exact arithmetic. The statement is about dt times the recorded numbers: the code sums without the factor dt. C94_program shows that such programs run to the end. C94_order gives the order of the error in the size of the cells."
  },
  {
   "property": "C95",
   "status": "proved",
   "theorems": [
    "Qbox.Props.C95_first"
   ],
   "note": "Monitors are new when they are added. Computable excludes quantities that the code cannot compute for the monitor (C66)."
  },
  {
   "property": "C96",
   "status": "proved",
   "theorems": [
    "Qbox.Props.C96_simple",
    "Qbox.Props.C96_dispersive",
    "Qbox.Props.C96_lorentz",
    "Qbox.Props.C96_program",
    "Qbox.Props.C96_order"
   ],
   "note": "Surface monitors in closed domains, no absorbing layer, no incident wave, exact arithmetic. The code sums without the factor dt, hence dt squared. The bound is explicit; with interfaces at which the solution is not smooth the error of the fields is only of order one half (C84), and the bound does not vanish then. C96_program shows that such programs run to the end. C96_order gives the order of the error in the size of the cells."
  },
  {
   "property": "C97",
   "status": "proved",
   "theorems": [
    "Qbox.Props.C97_simple",
    "Qbox.Props.C97_dispersive",
    "Qbox.Props.C97_lorentz",
    "Qbox.Props.C97_program",
    "Qbox.Props.C97_order"
   ],
   "note": "Box monitors in closed domains, no absorbing layer, no incident wave, exact arithmetic; see C96. C97_program shows that such programs run to the end. C97_order gives the order of the error in the size of the cells."
  },
  {
   "property": "C98",
   "status": "proved",
   "theorems": [
    "Qbox.Props.C98_simple",
    "Qbox.Props.C98_dispersive",
    "Qbox.Props.C98_lorentz",
    "Qbox.Props.C98_lossless",
    "Qbox.Props.C98_passive_simple",
    "Qbox.Props.C98_passive_dispersive",
    "Qbox.Props.C98_passive_lorentz"
   ],
   "note": "Box monitors in closed domains, no absorbing layer, no incident wave, exact arithmetic; see C97. The derivatives of the solution are required to be continuous only where it is called smooth, so edges of bodies may run through the box."
  },
  {
   "property": "C99",
   "status": "proved",
   "theorems": [
    "Qbox.Props.C99_incident",
    "Qbox.Props.C99_order"
   ],
   "note": "Exact arithmetic. The signal has to have five bounded derivatives and to be zero up to the start, so it does not cover a sine that starts with a kink."
  }
 ]
}