# Formal model of Qbox (2D TM FDTD) in Lean 4

Source under study: `/repo` (johnaparker/Qbox, C++). The code is read as text only; it is never built or run.
Model and proofs: `lean/Verif/**`. Properties: `properties.jsonl`. Claims: `MANIFEST.json`. Seeded bugs: `seeded/LOG.jsonl`.

## 1. Approach

* **Scalars.** The numeric code is modelled once over an abstract scalar type `K` (`class Scalar K`, operations
  only, *no laws*): `+ - * /`, comparisons, `sin cos exp sqrt`, `floor ceil round`, integer literals.
  - *Structural* theorems (memory safety, iteration order, locality, non-interference, bookkeeping, file contents, ...)
    are proved for **every** `Scalar K`; they therefore hold for any rounding behaviour, in particular for the
    `Scalar Float` instance (IEEE double) which is also given.
  - *Algebraic* theorems (linearity, energy, exactness, ADE equations, ...) are proved for the `Scalar ℝ` instance, i.e.
    in exact arithmetic. Rounding error is not modelled there; this is named in every such claim.
* **Undefined behaviour.** Out-of-range Eigen indices, integer division by zero, signed overflow of the repeat counter,
  null or dangling dereference and falling off the end of a non-void function are the distinct outcome `Fault.ub _`; C++
  exceptions are `Fault.exn _`. Functions that can fault return `M α = Except Fault α`.  `x/0` on scalars stays whatever `K`
  says (IEEE: inf/nan); in theorems over ℝ the divisors are shown non-zero explicitly or excluded by a hypothesis, and the
  value `x/0 = 0` is never used.
* **Loops** are folds over the list of the indices in program order, each body doing checked reads and writes on the
  current state. That the sequential loop equals the simultaneous stencil is a theorem (C13), not the definition.
* **Histories.** `Sim` is the state of a `Field2D`; `Op` the alphabet of API calls. A call ends normally, by an exception
  that leaves some state behind, or by undefined behaviour (`Res`). `Sim.run` runs a list of calls and goes on after
  exceptions; `Sim.runOk` stops at the first one.
* **Specifications** live in separate files (`Verif/Spec/*`) and do not use the helpers of the code model; property theorems are
  in `Verif/Props/*` (named `Cnn_...`), helper lemmas in `Verif/Lemmas/*`.
* When a property turns out false for the code that exists, the negation is proved on a concrete witness
  (`..._false`), the strongest true restriction is proved with the suffix `_partial`, and the disagreement is listed in §5.
* Beside each theorem an `example` shows a concrete non-trivial case that meets its hypotheses.

## 2. What is modelled

| Code | Lean module (`Verif/Model/`) |
| --- | --- |
| faults, loops over `int` ranges, checked `Array`/`tensor` access | `Base.lean` |
| `double` and its operations | `Scalar.lean` |
| `include/vec.h` (surfaces, volumes, cylinder surfaces) | `Vec.lean` |
| `src/grid.cpp` | `Grid.lean` |
| `src/geometry/*`, `src/object.cpp`, `src/dynamic_object.cpp` (pose, inside, bounding box, monitor box) | `Object.lean` |
| `src/materials/{simple_material,debye,drude,lorentz,creation}.cpp` | `Materials.lean`, `RawMaterials.lean` (parameter arrays kept apart) |
| `src/materials/*_polarization.cpp`, `add_polarization` | `Polarization.lean` |
| `src/pml.cpp` | `Pml.lean` |
| main loops of `Field2D::update` | `Yee.lean` |
| physical state of `Field2D`: `update` up to and after the monitors, `insert_object`, `update_material_grid`, `clear_fields`, `set_tfsf` | `Core.lean` |
| `src/dft.cpp`, `include/dft.h` | `Dft.lean` |
| `src/sources/*` | `Sources.lean` |
| ownership of `time_profile` objects (heap model, refined to `Sources.lean`) | `Profiles.lean` |
| `src/tfsf.cpp` | `Tfsf.lean` |
| `src/monitors/*`, `include/monitors/*`, `Field2D::interpolate` | `Monitors.lean` |
| `to_grid`, `to_xgrid`, `to_ygrid`, `ntff(radius, N)` | `Recenter.lean` |
| `src/time_monitors/*`, `write_field`, group `fields` of the output file | `TimeMonitors.lean` |
| `include/timer.h`, `src/timer.cpp` | `Timer.lean` |
| static counters behind automatic names | `Names.lean` |
| `Field2D` with all lists, file and clocks; all public calls; programs | `Sim.lean` |
| the whole output file, `write*` functions, `flux().write()` etc., programs with them | `Output.lean` |

The specifications are in `Verif/Spec/`: `YeeSpec` (finite-difference equations), `MediumSpec` (Ampère, Debye, Drude, Lorentz laws at a
node), `MaterialSpec`, `CoverSpec`, `RenameSpec`, `FileSpec`, `EnergySpec`, `PlaneWaveSpec`, `ResponseSpec`, `ReversalSpec`, `LorentzWaveSpec`, `SpectraWaveSpec`, `FluxWaveSpec`, `PoyntingSpec`, `ResultSpec`, `DrivenSpec`, `ConvergeSpec`, `DispersiveSpec`, `RoundSpec`, `TotalSpec`, `ReciprocitySpec`, `WindowSpec`, `NumberSpec`, `DelaySpec`, `LinearSpec`, `LocalSpec`, `SwapSpec`, `MirrorSpec`, `IncidentSpec` (1D plane wave), `SourceSpec`,
`DftSpec`, `SpectrumSpec`, `RecordSpec`, `PointSpec`, `InterpSpec`, `RecenterSpec`, `FluxSpec` (Poynting, stress tensor), `FarFieldSpec`, `CircleSpec`,
`WatchSpec`, `OutputSpec`, `HistorySpec`, `RestartSpec`, `ReachSpec`, `ProfileSpec`, `ResonanceSpec`, `SubtractSpec`.

Not modelled, or modelled in a simplified way:

* HDF5 and h5cpp. A file is a map from paths to objects, a growing data set the list of rows written to it. Creating an object that
  exists, or a reference to one that does not, is an exception; other failures (disk full, names with `/`, ...) are not represented.
  Shapes of arrays are not kept, only their values in order.
* Console output, `termcolor`, the Python tooling, the directory `old/`.
* `int` is ℤ (the step counter does not overflow), except in `every`, where 32-bit wrap-around and overflow are explicit.
  Allocation failure is not represented.
* `#pragma GCC ivdep` is read as a promise that holds: the loops are sequential. C13 shows that the order does not matter for
  the loops that carry it.
* The innermost loop over frequencies of the running transforms (`src/dft.cpp:41-44`) acts on all frequencies at once.
* `-=` between arrays of different shape (Eigen asserts, or with `NDEBUG` reads at the wrong place) is undefined behaviour.
* When a call throws, the state kept is the one at the throw. For `-=` and for time monitors, which change things before they throw,
  separate functions (`subLeft`, `writeLeft`, `writeReadyLeft`) compute it.
* The parameter arrays of a dispersive material are one list of poles in most of the model. `Model/RawMaterials.lean` keeps the arrays apart, with
  coefficient-wise operations between arrays of different sizes as undefined behaviour; C88 shows that the two agree on arrays of one length.
* `ntff` at the centre of the monitor or for frequencies ≤ 0 divides by zero; the theorems exclude it.
* `pml_thickness = 0` (stored thickness 1) divides by zero in the layer profiles (`src/pml.cpp:61-72`); excluded by
  `Core.Std.thick`.

## 3. Trusted base

Lean 4 kernel; axioms allowed: `propext`, `Classical.choice`, `Quot.sound` (checked by `vcheck`, nothing else is used). No user
axioms, no `sorry`, no `native_decide`/`bv_decide`. Plus: the faithfulness of the transcription of the C++ text, which each
definition documents by file and line, and the readings of C++, Eigen and HDF5 listed at the end of §2. For C73 and C74: every arithmetic
operator of the source is one correctly rounded IEEE double operation in the order of the text (`CMakeLists.txt:9-16` sets neither
`-ffast-math` nor an instruction set with fused multiply-add; x86-64 computes in SSE2 registers), and no operation overflows.

## 4. Per property

| id | model | proof |
| --- | --- | --- |
| C01 | `toGrid`, `toReal` over ℝ with C `round` (half away from zero) | floor/ceil arithmetic |
| C02 | `Grid.make` | ceil bounds, field arithmetic |
| C03 | `clipI` | false: witness; partial: which edges are kept, safe for boxes not overhanging them |
| C04 | `Volume.getSurface` over ℝ | case analysis, norms |
| C05 | `Surface.make`, integer and real versions, int division by zero = UB | case analysis |
| C06 | pose as (position, angle), `Object.inside` | induction over pose histories; rotation algebra |
| C07 | `boundingBox` per shape | trigonometric inequalities; cylinders/ellipses by Cauchy–Schwarz |
| C08 | `getBoxMonitor` volume | from C07 |
| C09 | `updateObjectMaterialGrid` loops | pointwise characterisation of the write loop, induction over the object list |
| C10 | same, outcome `ub` | false: exact characterisation and witnesses; partial: guard under which it is safe |
| C11 | same | from C09 |
| C12 | polarization strength tensors | false after a move (witness); partial: with `clear_fields` first |
| C13 | `update` loops | loop = pointwise formula; permutation invariance lemma for keyed writes |
| C14 | every call, in `Except Fault` | invariant `Sim.Safe` preserved by every op; shapes of attached monitors never change (`Sim.Kept`); totality under both |
| C15 | whole step, ℝ | per-stage linear maps, induction over steps |
| C16 | any `K` | per-stage locality lemmas, induction |
| C17 | ℝ | induction |
| C18 | ℝ | summation by parts on arbitrary rectangles, Young inequality; partial: with a layer only while the field has not reached it, no dispersive media |
| C19 | ℝ | stage-wise conjugation |
| C20 | ℝ | false: witness; partial: agreement away from the edges |
| C21 | pml coefficients over ℝ, update for any `K` | real analysis; case split on index ranges |
| C22 | `Sim` histories | induction |
| C23 | any `K` | simulation relation ignoring monitors |
| C24–C27 | materials + polarization + complete step | algebra; single pole exact; several poles and Lorentz false (witness) |
| C28 | polarization `update_J` in complete steps | pointwise; Lorentz false (witness) |
| C29, C30 | material constructors | algebra; C30 false (witness) |
| C31, C32 | sources | loop lemma; termination via number of cells |
| C33 | tfsf + complete step, ℝ | invariant over steps: the total-field region carries the 1D wave, outside is zero |
| C34 | tfsf in `Except Fault` | index arithmetic |
| C35–C37 | dft | induction over sample lists; histories of calls |
| C38 | surface/cylinder monitor memory | induction over histories |
| C39 | `interpolate` over ℝ | algebra; false for H unless dx = 1/2 |
| C40 | volume monitor | loop lemma; reversed corners false |
| C41, C42, C54 | flux, force, torque, ntff over ℝ | finite sums, lifted to histories |
| C43 | point monitor | dangling reference = UB: false |
| C44 | 32-bit counter | induction, modular arithmetic |
| C45, C46 | file as list of rows | induction over histories |
| C47 | name counters | injectivity of decimal rendering |
| C48, C49 | timers with clock readings | invariants over histories; C49 false (witness) |
| C50 | `clearFields` in histories | simulation relation; false (two witnesses) |
| C51, C52 | constructor / flux | false (UB) + partial |
| C53 | heap model of profiles | refinement to value semantics |
| C55, C56 | ntff sums | false (witness), corrected statement as partial |
| C57 | all calls, inside the domain | invariant giving progress of every call |
| C58 | recentring | weighted averages over ℝ; one case false (witness at every resolution) |
| C59 | far field on a circle | trigonometry; false for the last direction, partial for the others |
| C60 | objects under objects | painting order; false for dispersive materials (one or two updates separate the fields), partial for the others |
| C61 | material names in whole programs | lockstep simulation of two programs; false for shared names and for two Lorentz media in another order (witnesses), partial for order-preserving renamings, and for any order when there is one Lorentz medium (the poles at a node are linear filters in a row, which commute) |
| C62 | file as a map from paths to objects | one-step monotonicity, induction |
| C63, C64 | objects in the file | invariant relating the file to the objects; C63 false for materials sharing a name (witness) |
| C65 | exceptions of calls with the file | case analysis over calls; false (witness), partial for the other calls |
| C66 | whole programs with their file | invariant: paths not yet claimed are free |
| C67 | results in the file | C36 and C41 lifted to files; false for box monitors (witness) |
| C68 | two additions with a program in between | from C62 |
| C69 | ℝ | closed form of the signal, comparison with a geometric series, C53 |
| C70 | ℝ | energy as a positive quadratic form: triangle inequality for the field and the jolts of the sources; C69 for pulses |
| C71 | ℝ | residual of a smooth solution in the update equations (Taylor by the mean value theorem), energy norm of the error as in C70, induction over the updates; counting of the cells that a curve cuts |
| C72 | ℝ | energy of C18 plus the energy stored in Debye media of at most two poles and one-pole Drude media never grows (for two Debye poles a quadratic form in the field and both currents that knows the order of the updates); for two-pole Drude, one-pole Lorentz and eight-pole Debye media a standing wave on a 6×6 grid reduces the program to a linear recurrence, and an invariant cone with a growing form shows that it is unbounded; for three Debye poles the same on a grid with two inner nodes, one of them a dielectric |
| C73 | rounding | model over numbers with a rounding after every operation (`Spec/RoundSpec.lean`), IEEE double precision as an instance; error analysis of the conversions, induction over the updates for the clock |
| C74 | rounding, ℝ | the same model over both arithmetics: in one step the rounded fields are the exact step of the rounded fields plus a jolt bounded by the unit roundoff; the energy norm of C18 carries the jolts to the end (discrete Gronwall); every source is one more jolt, bounded by the rounding of the sum and by the difference of the two signals; for a sine signal that difference follows from the error of the clock |
| C75 | rounding, ℝ | C71 (with sources: C84) from any start values, C74 and the triangle inequality for the root of the sum of squares; numbers for double precision |
| C76 | ℝ | all fields of a run from silence as formal power series in the step (`Lemmas/RecipRun.lean`): media and layer become multiplications by series, the update equations a symmetric linear system, and summation by parts of the products of the two runs gives the claim (`Lemmas/RecipSeries.lean`) |
| C77 | ℝ | relation between the states of the two programs, equal up to powers of the factor on a set of nodes (`Lemmas/WindowStep.lean`), kept by construction, `add_object`, `set_tfsf` and update (`Lemmas/WindowMake.lean`); the set is the whole grid without a layer and shrinks by one cell per step with a layer. False with a layer, one update beside a source at its inner edge |
| C78 | ℝ | the same relation with a shift of the nodes; the set is the intersection of the interiors of both grids |
| C79 | `Spec.Xr`: ℝ with infinities and NaN | the model runs unchanged in a second arithmetic where division by zero gives an infinity or NaN; simulation function by function (`Lemmas/Number*.lean`): if the ℝ-program ends, so does this one, with the same numbers in every place that is read. False for a layer of zero cells: NaN is never overwritten by a number and moves one row per update (`Lemmas/NanSpread.lean`) |
| C80 | `Spec.LaterScene` | two relations between runs: equal up to the clock (`Late`, kept by every step while the signals agree), and the quiet run, zero by superposition with zero coefficients and with the same media (`SameMedia`); the delayed run is the first relation after the second |
| C81 | `gaussianResp` | the signal is compared at a quarter period; false for the fields after one step of a pulse with a larger T0 |
| C82 | Debye, Drude and Lorentz updates | the poles at a node are a chain of first-order filters; exchanging neighbours and dropping idle ones keeps the output, by two linear invariants that every update keeps; false for Lorentz media and for poles given in two parts (witnesses) |
| C83 | electric and magnetic stages, materials, sources, incident wave | two runs in lockstep: the signal of a node is what the objects change there in a step, so both runs stay equal; the wave and the sources then add up by linearity and C33 gives the field outside the region; false for Lorentz media (witness) |
| C84 | electric and magnetic stages, simple materials, point sources, ℝ | Taylor expansion as in C71 with a current in the middle of the step; energy estimate with the residual as the source; the magnetic field at rest is half a step late, which is a residual of second order |
| C85 | electric and magnetic stages, Debye and Drude polarization of one pole, point sources, ℝ | Taylor expansion as in C84 also for the law of the pole; the energy estimate of C72 for the difference of fields and currents, with the residuals of both laws as its source |
| C86 | the closed domain, electric and magnetic stages | discrete cosines are orthogonal, so any field is a sum of standing waves; a step turns every amplitude like a rotation; concavity of sin² as a function of the squared angle gives the upper bound of the frequency, the cubic bound of the sine the lower one; false for metal walls on all sides |
| C87 | `-=` of monitors with its exception and its undefined behaviour | the first component on which the sides disagree decides; induction over the components; false by three pairs of attached monitors |
| C88 | parameter arrays kept apart, `cwise` and the comma initializer with their size checks, `insertRaw`, `rawDrudeLorentz` | equal to the functions on lists of poles for arrays of one length (induction over the arrays); otherwise every outcome is undefined behaviour; false by an array that is too long |
| C89 | the laws of the grid on a rectangle, the wave as a formula at the nodes | the formula satisfies the discrete laws for the frequency of the dispersion relation; the run agrees with every solution of the laws in the shrinking rectangle (induction over the updates); bounds on the frequency from the concavity of the sine |
| C90 | the same with two dielectrics | the three waves continued to both sides agree at the nodes next to the plane exactly when the coefficients are the stated ones; the same induction; bounds on the coefficients |
| C91 | the same with media of at most one pole; fields as real parts of complex exponentials; permittivities as in textbooks | difference and mean of an exponential over a step have the ratio -iΩ dt with Ω = (2/dt)tan(ω dt/2), so the law of a pole becomes multiplication by its susceptibility at Ω; field and current after a step are unique, hence the run agrees with the formula (induction); sign of the imaginary part of the wave number from that of the permittivity |
| C92 | a closed domain of lossless objects; reversal of time negates the magnetic field of half a step earlier and the currents | one update after the reversal satisfies the laws of a step with the old state as its result; the result of a step is unique, so it is the old state; induction over the number of updates |
| C93 | `C85` for one Lorentz medium: its polarization half a step after the currents, computed from two fields and two currents, moves by `dt J'`; the currents obey the law of free charges with the force `-omega² P` | the fields and currents as in `C85`, with that force and the leak of `Ca_prev` as disturbances; three norms (energy, polarization, old field) that bound each other over one step; induction over the number of updates |
| C94 | the file after a whole program (`World.run`), the integral of a solution of Maxwell's equations with the kernel of the transform | the numbers are the sums of the fields at the steps (`C67_volume_partial`); the fields are near the solution at every step (`C84`, `C85`, `C93`); the sum over the steps is near the integral because field and kernel change slowly; Minkowski's inequality over the steps; `C94_order`: the order of the bound |
| C95 | the tree of paths in the file, all calls that create objects in it | invariant: a path of results exists only if an earlier call wrote it, all groups above are groups; induction over programs, also over calls that threw |
| C96 | the file after a whole program, the integral of the Poynting vector of the spectra of a solution of Maxwell's equations along a line | the numbers are sums over the cells of the line of products of transforms of interpolated fields (`C67_flux_partial`); interpolation along a line: the nodes with one weight are a shifted copy of the line, so their mean square is at most that of all nodes divided by a cell; Minkowski over weights and steps, Cauchy and Schwarz for the products; the integral is compared cell by cell at all offsets at once; `C96_order`: the order of the bound |
| C97 | the file after a whole program, the energy of a solution of Maxwell's equations that leaves a box | the number is the sum of those of the faces (`C67_box_flux_partial`); each face is a line of C96 (`line_flow`), with the sign of the face and its direction turned into the outward normal; `C97_order`: the order of the bound |
| C98 | the file after a whole program, the work of the electric field on the currents in a box, at one frequency | Poynting's theorem for spectra over a finite time (`poynting`): divergence theorem on the rectangle with the edges of bodies taken out, integration by parts in time with the field left at the end as remainder; then C97. Passivity: the spectrum of the current of a pole is an admittance with non-negative real part times that of the field, up to what is left at the end |
| C99 | the 1D line of the total-field region, including its open end, and C33 | the line is a stable scheme: its energy with the flow through the open end never grows (`bounded_value`); the sampled plane wave satisfies it up to fourth differences of the signal (`LineError`), and the difference of two lines is a line with that as its source |
| C100 | whole programs with an incident wave and simple objects | superposition at the level of programs: subtract the wave in vacuum (C33); what is left is a program with point sources whose signals are computed from the wave (`sources_minus`). These carry the induced current up to the error of C99, so that C84 gives the limit |
| C101 | whole programs with an incident wave, a box monitor and a flux report | the flux of a box depends only on the fields near its faces (`holdsBoxFlux_near`): there the fields differ from those that C100 speaks of by nothing outside of the region, and by a continued plane wave inside it. The total field is itself a solution (`lit_driven`), so that Poynting's theorem of C98 applies to it |
| C102 | whole programs with a box monitor of all components and a force or torque report | `Wave.boxForce` and `Wave.boxTorque` state the integral of the stress in Cartesian form, with no reference to tangents or signs; `line_pull_near` and `line_twist_near` rotate the stress of each side into that form and compare the sum over cells with the integral, as for the flux (C97); then the error of the fields enters as for C97 and C101; `C102_order`: the order of the bound |
| C103 | as C102 | `Wave.push` and `Wave.spin` state the Lorentz force on a current and its moment; `momentum` is the divergence theorem for the stress weighted by a rigid motion, with Maxwell's equations of the spectra (as `poynting` for C98); `box_push` specialises it to two translations and a rotation; then C102. The wave is asked to obey Gauss's law for the magnetic field (`Wave.Solenoidal`) |
| C104 | `Tfsf.pulse`, `Tfsf.flux`, `Call.tfsfFlux` in programs | `planeFlow` is the squared spectrum of the signal; `run_tfsf` shows that the line takes its steps whatever else is in the domain, C52 gives the recorded sums, `line_records` (from the error of the line, C99) and `near_spectrum` compare them with the integral; `C104_first_order` bounds the explicit error by a constant times the step; the cross sections are quotients with C101 |
| C105 | as C94 and C96, with `Core.setTfsf` | `fields_beside` and `fields_within` take C100's error and remove the incident wave, or continue it everywhere, at the nodes that the monitor does not read; `spectra_near` and `flux_near` are C94 and C96 for fields that agree with those of a wave only at the nodes of the monitor |
| C106 | as C85, with `Core.setTfsf` | the program with objects and the one without run side by side (`LitPair`); their difference obeys the laws of C85 with a current that the incident wave induces, while the poles see the sum (`LitPair.step`); the energy of the distance to the sampled solution, with the energy stored in the poles, grows per step by the error of the scheme (`lit_error_step`); the bound is estimated by a constant that does not depend on the grid times powers of the size of the cells (`C106_order`, `C106_vanishes`; `C100_order`, `C100_vanishes` for simple media) |
| C107 | as C101, C104, C105 | the fields of C106 at the nodes of the monitor are those of the scattered or the total wave (`metal_beside`, `metal_within`), from which the theorems about the sums of monitors follow; the polarization current belongs to the total field above the entry of the wave (`lit_polarized`), so that the work of the field on it is bounded below (`response_work`); `C107_order`: the order of the bound |
| C108 | as C102, C103 | the fields of C106 put into the theorems about the stress of box monitors (`holdsBoxForce_near`), and the balance of momentum of the total wave with the polarization current among the currents (`pushed_close`); `C107_order`: the order of the bound |

## 5. Disagreements between documentation/intent and code

Each line names the code, what it does, and the theorem that shows it.

| id | where | what happens | theorem |
| --- | --- | --- | --- |
| C02 | `include/grid.h` comment | `Nx*dx = Lx` in the comment; the code has `Lx = dx*(Nx-1)` | `C02_header_comment_false` |
| C03, C10 | `src/grid.cpp:58-72` | `clip` tests only x against 0 and y against the top (against `Nx` for the lower corner); objects over the right or bottom edge write out of bounds | `C03_false*`, `C10_faults_iff`, `C10_false` |
| C07 | `src/geometry/cylinder.cpp:7` | a negative radius is accepted and the bounding box is wrong | `C07_cylinder_negative_radius_false` |
| C12 | `src/field2.cpp:199-206` | `update_material_grid` does not erase the polarization strength where an object has left | `C12_debye_ghost`, `C12_drude_ghost`, `C12_lorentz_ghost`, `C12_false` |
| C20 | `src/field2.cpp:177-183` | the magnetic loop starts at 1: left column of Hy and bottom row of Hx are never updated | `C20_not_mirror_symmetric` |
| C25, C26 | `src/materials/debye_polarization.cpp:32-35`, `drude_polarization.cpp:32-35` | with several poles each pole uses an electric field that is corrected for the previous poles only | `C25_false`, `C26_false` |
| C27 | `src/materials/lorentz.cpp:51-54`, `lorentz_polarization.cpp:36-38` | `Ca_prev` has denominator `2*eps + sum` instead of `2*eps + sum/2`, and is added once per pole | `C27_false` |
| C28 | `src/materials/lorentz_polarization.cpp:34-38` | `Ca_prev*E` is added at every node of the grid, inside the object or not | `C28_lorentz_leak`, `C28_false` |
| C30 | `src/materials/simple_material.cpp:38-40` | `mu` is stored and never used | `C30_false`, `C30_mu_ignored` |
| C35 | `include/dft.h:43`, `src/dft.cpp:29` | a first sample at time 0 is dropped | `C35_time_zero_dropped` |
| C36 | `src/field2.cpp:212-233`, `src/dft.cpp:50-52` | after `clear_fields` an update at the last recorded time is dropped | `C36_false` |
| C38 | `include/monitors/surface_monitor.h:31` | a monitor attached to a non-zero field averages its first sample with 0 | `C38_late_false` |
| C39 | `src/field2.cpp:258-259` | the half-cell shift is `dx` cells instead of half a cell | `C39_false`, `C39_magnetic_error` |
| C40, C45 | `include/vec.h:115-117` | boxes given with reversed corners record other nodes, or read out of bounds | `C40_reversed_false`, `C40_reversed_oob`, `C45_reversed_false`, `C45_reversed_oob` |
| C42 | `include/monitors/cylinder_monitor.h:155-158` | the torque of a cylinder monitor returns a dangling Eigen expression; the torque of a uniform field on a box that is not a whole number of cells is not zero | `C42_cylinder_torque_undefined`, `C42_uniform_torque_false` |
| C43 | `include/monitors/point_monitor.h:36-60` | point monitors read a dead local variable | `C43_dangling` |
| C44 | `include/time_monitors/time_monitor.h:12-26` | `every(n)` for n ≥ 2^31 wraps to a negative period | `C44_wrapped`, `C44_overflow` |
| C45 | `src/time_monitors/surface_time_monitor.cpp:18-25` | a surface time monitor omits the last node of its segment | see `C45_snapshots_partial` |
| C47 | `src/monitors/monitor.cpp:14`, `src/time_monitors/time_monitor.cpp:6` | two counters with the prefix `monitor_` | `C47_time_monitor_false` |
| C49 | `src/field2.cpp:130`, `:163` | after an exception in a source the loop clock stays on; every later update throws and still advances time | `C49_stuck`, `C49_false` |
| C50 | `src/field2.cpp:212-233`, `src/materials/*_polarization.cpp` (`reset`) | `clear_fields` keeps the memory of the layer and deletes the pole strengths | `C50_layer_false`, `C50_dispersion_false`, `C50_debye_off` |
| C51 | `src/field2.cpp:48-55` | without a file name the constructor dereferences a null pointer | `C51_false` |
| C52 | `src/tfsf.cpp:119-131` | `flux()` without requested frequencies returns nothing | `C52_undefined_without_freq` |
| C55 | `include/monitors/surface_monitor.h:200-212` | the far-field sum lacks the length element, and uses the start of each cell, not its centre | `C55_resolution_false` |
| C56 | `include/monitors/surface_monitor.h:187`, `:209`, `src/dft.cpp:34-35` | the transform uses exp(+iωt), the far field the phases of the opposite convention | `C56_direction_false` |
| C58 | `src/field2.cpp:291` | `to_xgrid` of Hx averages the samples around the point one cell to the left and one cell up | `C58_xgrid_Hx_false` |
| C59 | `include/monitors/box_monitor.h:66`, `include/monitors/cylinder_monitor.h:176` | `LinSpaced(N, 0, 2*PI)` contains both ends, so the last direction repeats the first | `C59_directions_false`, `C59_box_repeats` |
| C60 | `src/field2.cpp:328-341`, `include/field2.h:171-184` | the pole strengths of a covered dispersive object stay active under the covering object | `C60_debye_effect`, `C60_drude_effect`, `C60_false` |
| C61 | `include/field2.h:171-184` | of two dispersive materials with the same name, the first one gives the poles of both | `C61_same_name_effect`, `C61_false` |
| C61 | `src/materials/lorentz_polarization.cpp:37-42` | every Lorentz medium adds a term to the electric field at all nodes, also outside its objects, so the order of the names of two Lorentz media changes the fields | `C61_order_effect`, `C61_order_false` |
| C63 | `src/field2.cpp:351-359` | the parameters of a second material of the same name are not written; its objects refer to the first | `C63_false` |
| C65 | `include/field2.h:136-142`, `src/field2.cpp:246-250` | an object (plane wave) whose name is taken has been painted (set) before the file refuses it | `C65_object_painted`, `C65_tfsf_replaced`, `C65_false` |
| C67 | `include/monitors/rank_monitor.h:20-22`, `include/monitors/box_monitor.h:29-37` | `write()` of a box monitor writes its own empty transform, not those of its faces | `C67_box_nothing`, `C67_false` |
| C72 | `src/materials/debye_polarization.cpp:32-35`, `drude_polarization.cpp:32-35`, `lorentz.cpp:51-54` | the disagreements of C25, C26 and C27 make passive media amplify: fields in a closed domain with an eight-pole Debye medium, a three-pole Debye medium beside a dielectric, a two-pole Drude medium or a one-pole Lorentz medium grow without bound at the time step of the program (numerically the growth of the Lorentz case vanishes with the right `Ca_prev`) | `C72_debye_false`, `C72_three_false`, `C72_drude_false`, `C72_lorentz_false` |
| C73 | `src/grid.cpp:10-11` | the number of nodes is the rounded product of length and resolution, rounded up: when the product of the rounded numbers is slightly above an integer the grid gets an extra row of nodes (length `0.07`, resolution `100`: 8 nodes, not 7) | `C73_extra_node` |
| C77 | `include/pml.h:15`, `src/pml.cpp:61-63` | `a_max = 0.2` is a frequency in units of the user, while `sig_max` scales with the spacing: the same layer absorbs differently in another unit of length | `C77_false` |
| C79 | `src/pml.cpp:61-72` | `pml_thickness = 0` makes `thickness - 1` zero; the coefficients of the layer are NaN and after `Ny - 2` updates so is every inner node | `C79_nan`, `C79_false` |
| C81 | `src/sources/time_profile.cpp:18` | a larger `T0` moves the envelope but not the carrier, so the pulse has another phase unless the delay is a whole number of periods | `C81_partial`, `C81_false` |
| C82 | `src/materials/lorentz_polarization.cpp:37-42` | `Ca_prev*prev2E` is added once per pole and each pole sees a part of the sum, so a pole of no strength and the order of the poles change the fields | `C82_lorentz_idle_false`, `C82_lorentz_order_false` |
| C82 | `src/materials/debye_polarization.cpp:33-34` | each pole is driven by an electric field that the currents of the later poles do not act on yet, so one pole and two poles of half its strength give different fields | `C82_split_false` |
| C83 | `src/materials/lorentz_polarization.cpp:34-38` | every Lorentz material adds `Ca_prev*prev2E` at every node of the grid, so an object that contains no node changes the fields everywhere | `C83_false` |
| C85 | `src/field2.cpp:146-162` | sources are added after the poles have been updated and the next difference of `Ez` starts from the sum, so the pole at the node of a source never sees what the source adds: its law lacks `dEps s/dt` (Debye) or `omega² s/2` (Drude) | `C85_unfelt`, `C85_unfelt_drude` |
| C86 | `src/field2.cpp:178-184` | the loops of the magnetic field start at node 1, so `Hy` at 0 and `Hx` at 0 stay zero: two walls of a closed domain are magnetic, not conducting | `C86_false` |
| C87 | `include/dft.h:94-101` | `-=` checks neither frequencies nor shapes, and throws halfway when a component is missing, with the ones before it already subtracted | `C87_false`, `C87_not_atomic`, `C87_other_frequencies`, `C87_undefined` |
| C88 | `src/materials/debye.cpp:9-12`, `drude.cpp:9-13`, `lorentz.cpp:9-13`, `creation.cpp:8-24` | the lengths of the parameter arrays are never compared | `C88_false`, `C88_new_name`, `C88_covering`, `C88_mispaired` |
