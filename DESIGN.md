# Lean model of WISDEM/CCBlade

## What is modelled

The sources in `/repo/ccblade` are modelled function by function, as shallow Lean functions that follow the Python or
Fortran code branch by branch.  Every definition cites the file and lines it stands for.

Scalars: `Verif/Num.lean` has the class `Num` of scalar operations the code uses, with no laws.  The model is written once,
polymorphic in a scalar type with these operations, and instantiated three times:

* `ℝ` – exact real arithmetic, used for statements about values and derivatives;
* `XR` (`Verif/XR.lean`) – reals with `nan` and `±inf`, used for statements about NaN (Fortran and numpy do not raise); its
  constant `pi` is the double nearest to π, so that `cos(pi/2)` is not zero;
* `Float` – IEEE doubles, for executing the model only.

Theorems about control flow are proved for *every* scalar type with these operations, so they hold for doubles too.

| module | source | content |
|---|---|---|
| `Model/CSystem` | `csystem.py` | `DirectionVector`: all conversions, derivative dictionaries, arithmetic, cross products, `fromArray`, `toArray` |
| `Model/Bem` | `src/bem.f90` | `inductionFactors`, `relativeWind`, `defineCurvature`, `windComponents`, `thrustTorque` |
| `Model/BemDv` | `src/bem.f90` | the Tapenade forward routines of these |
| `Model/BemBv` | `src/bem.f90` | the Tapenade reverse routines of `thrustTorque` and the geometry |
| `Model/Py` | numpy | exceptions, `interp`, `union1d`, `unique`, `argmax`, list indexing, … |
| `Model/CCBlade` | `ccblade.py` | constructor, BEM solve, loads, derivatives, `distributedAeroLoads`, `evaluate`, inverse analysis, object state |
| `Model/CCAirfoil` | `ccblade.py` | `CCAirfoil`: tables, single-Re duplication, `max_eff`, `awayfromstall`, `eval_unsteady`, breakpoints |
| `Model/AirfoilPrep` | `airfoilprep.py` | `Polar`: `blend`, `correction3D`, `extrapolate` with moments; `Airfoil`: ordering, `getPolar`, common grid |
| `Model/AeroDyn` | `airfoilprep.py` | reading and writing AeroDyn files, `unsteadyparam`, `CCAirfoil.initFromAerodynFile` |
| `Model/Files` | `ccblade.py`, `airfoilprep.py` | `af_flap_coords`; the main program of `airfoilprep.py`; a file system maps names to texts |
| `Model/Plot` | `airfoilprep.py` | `Polar.plot`, `Airfoil.plot`, `--plot`: curves, labels and axes of the figures |
| `Model/Component` | `ccblade_component.py` | the `compute`, `compute_partials` and `setup_partials` tables of the four OpenMDAO components |
| `Model/Declare` | `ccblade_component.py` | `setup`: variables with their sizes, `declare_partials` |
| `Model/EvalArrays` | `ccblade.py` | `evaluate` on three arrays of any lengths: indexing in the loop, broadcasting; output arrays and derivative dictionaries |
| `Model/Dtype` | `ccblade.py` | constructor and loop over the blade for arrays with an element type (integers or doubles) |
| `Model/Lengths` | `ccblade.py` | constructor, `distributedAeroLoads` and `evaluate` for `chord`, `theta`, `af` of any lengths (direct analysis) |
| `Model/Units` | `ccblade_component.py` | the argument `units` of `add_input` and `add_output` |

`Verif/Spec/*.lean` hold specifications that do not mention the model's helpers, `Verif/Props/*.lean` the property theorems
with their non-vacuity examples, `Verif/Lemmas/*.lean` helpers.

Not modelled: colours and layout of figures, the parsing of the command line, the sample rotors,
printing and warnings (a warning is a flag in the result), the OpenMDAO framework (a component is the function from inputs to
outputs), directories and permissions of files, `CCBlade` attributes no method reads.

Simplifications, each noted at the definition:

* Fortran arrays and numpy vectors are functions `ℕ → α` with a length, or lists where the length matters to the code.
* The loops over `nbdirs` in the Tapenade routines treat directions independently; the model has one direction.
* Python objects are records; a method returns the new record and either a value or an exception.  A raised exception keeps the
  mutations made before it.
* `while True` loops are unrolled with a bound; `none` means that the loop has not ended within the bound.
* `int()` and `float()` of a word, and the formatting of a number, are parameters in the file model.

## Trusted base

* The Lean 4 kernel; axioms `propext`, `Classical.choice`, `Quot.sound` only (no `sorry`, `native_decide`, own axioms);
  `tools/axioms.sh` lists them for every theorem of the manifest.
* The reading of the code: the model is transcribed by hand, the code is not run here.  As a check of the transcription (not a
  proof), `tools/conformance.py` executes the model over `Float` on the inputs of the project's own numerical tests, read as text
  from `/repo/test`: blending, rotational correction, extrapolation and the NREL 5MW rotor with its AeroDyn files.  All 33 arrays
  agree with the numbers written in the tests within the tests' tolerances.  brentq is replaced by bisection there, polyfit by the
  least squares line, and RectBivariateSpline by linear interpolation of tables smoothed with the residual that CCAirfoil asks for.
* Arithmetic: theorems over `ℝ` are about exact arithmetic.  Rounding is not modelled.  Division by zero and `acos`, `sqrt`
  outside their domain are total in Mathlib, so theorems over `ℝ` carry guards, and NaN is treated over `XR` or generically.
  One place where the guard cannot be seen: at the inflow angle π/2 exactly, `cphi*kp` is `0·(x/0) = 0` over `ℝ`, while doubles
  have `cos(pi/2) = 6e-17` and get `sigma·ct/(4F)`; both have the same sign in the bracket test for sections with non-negative
  lift there.  `XR` behaves as doubles do.
* External code, taken as parameters with contracts stated as hypotheses: `scipy.optimize.brentq`, `RectBivariateSpline`,
  `PchipInterpolator`, `numpy.polyfit`.
* Functions of numpy with a model of their own (`Model/Py`), written from numpy's documented behaviour; for `np.interp` with one query
  also from its search (`binary_search_with_guess`), because the code calls it with samples that are not sorted.
* Assignment of a double to an entry of an integer array truncates towards zero (`Model/Dtype`).
* OpenMDAO: `declare_partials` and the assignment to a Jacobian as described in its documentation (`Model/Declare`, header); the derivatives
  that `CCBladeTwist` declares by finite differences (l. 532) are OpenMDAO's and not modelled.
  A value given or asked for in other units is multiplied by the ratio of the units (`Model/Units`; offsets do not occur).

## Disagreements between code and expectations

Each is proved by a theorem; the full statement is kept in `properties.jsonl` and marked partial in the manifest.

| property | theorem | what happens |
|---|---|---|
| C02 | `profile_reverses_cross` | the two profile conversions reverse handedness, against `docs/csystem.rst` |
| C04 | `chain_repeated_angle_wrong` | a derivative with respect to an angle used twice in a chain keeps only the last contribution |
| C05 | `cross_deriv_same_name` | with equal names for both factors the entries of the second overwrite those of the first |
| C06 | `arith_derivatives_stale` | arithmetic on vectors resets derivative dictionaries or leaves them stale |
| C14 | `axialInduction_switch_not_differentiable`, `axialInduction_guard_not_monotone` | the singularity guard makes the induction factor jump |
| C29 | `build_axis_false` | precurve and presweep of the last station are moved independently of its radius |
| C32 | `brake_solutions_false`, `brake_solution_missed_false` | with losses the residual is NaN at negative inflow angles, solutions there are never found |
| C33 | `bracket_exists_false` | there are sections with no solution in any of the three brackets |
| C36 | `parked_rotor_false` | a parked rotor facing the wind squarely reports zero loads |
| C40 | `loads_total_derivative_Re_false` | load derivatives mix Reynolds numbers before and after induction |
| C42 | `inflow_radius_false` | radial derivatives are not diagonal on curved blades |
| C47 | `one_sector_false` | with one sector Y, Z and My of an axisymmetric rotor are not zero |
| C56 | `blend_zero_not_self` | blending with weight 0 cuts the table to the common range |
| C57 | `getPolar_stored_false` | the polar of a stored Reynolds number is returned cut to its neighbour's range |
| C61 | `extrapolate_increasing_false`, `extrapolate_sorted_false` | symmetric tables get their first angle twice; tables of negative angles come out unsorted |
| C62 | `extrapolate_raises_false` | a single row with non-zero moment raises IndexError |
| C64 | `correction3D_returns` | the rotational correction grows again beyond 90° (9/4 of the full one at 180°) |
| C67 | `aerodyn_roundtrip_false` | files are written without line ends and cannot be read back |
| C70 | `loads_component_stale` | the partials of the loads component are those of the last successful `compute` |
| C74 | `tip_speed_false`, `twist_reynolds_false` | speed based on the last station, Reynolds number with rpm taken as rad/s |
| C76 | `cm_last_row_lost` | the last moment datum is replaced by 0 when its angle is a multiple of ten |
| C78 | `evalUnsteady_total_false` | tables with a linear moment curve raise |
| C80 | `twist_root_false` | angles of thick root stations are overwritten, their lift and drag are not |
| C81 | `twist_outputs_false` | declared outputs P, T, Q, M of the twist component stay zero |
| C82 | `loads_component_jacobian_false` | Jacobian wrong where the constructor moves the first or last station |
| C84 | `evaluate_component_density_false` | declared partials with respect to density are never assigned |
| C85 | `unsteadyparam_degrees_false`, `unsteadyparam_exists_false` | angle of least drag in radians; rows outside the linear range counted |
| C94 | `unsteadyparam_first_false` | np.interp over deviations that do not increase: a later crossing is reported as stall |
| C96 | `aerodyn_text_false` | the angle of least drag is written in radians beside the description "(deg)" |
| C97 | `noWind_rotor_nan`, `masked_station_nan`, `zero_ct_station_nan` | derivatives NaN beside loads that are zero: no wind at one station, masked NaN, zero tangential coefficient |
| C97 | `axisymmetric_dCMz_nan`, `straight_dCZ_nan`, `parked_dCP_nan` | derivatives of coefficients are formed relative to the value and are NaN where it is zero: always for `CMz` without tilt, yaw and shear |
| C98 | `loads_precurveTip_false` | `CCBladeLoads` has no derivative with respect to `precurveTip`, though the loads jump where it equals the end of `precurve`; its documentation exempts `shearExp`, for which there is one, and not `precurveTip` |
| C98 | `evaluate_declarations` | `CCBladeEvaluate` declares derivatives with respect to `rho` and `mu` and never sets them |
| C99 | `evaluate_component_Mb_false` | `CCBladeEvaluate` announces the root bending moment `Mb` in N/m (N*m in the documentation of `evaluate`): OpenMDAO converts it wrongly to other units |
| C99 | (table `twistUnits`) | `CCBladeTwist` announces the thrust `T` in N*m; without effect, since it is never assigned |
| C100 | `airfoil_file_exact_false` | the splines are smoothed: at a tabulated point the lift may differ from the table by up to 0.32 |
| C101 | `evaluate_betz_false` | a station searched beyond 90° may be solved with an axial induction factor above one; a rotor of such stations reports CP = 24.96 without a warning |
| C101 | `station_betz_no_drag_false` | with wake rotation but without drag in the residual, a root beyond 90° may have a reversed swirl (`a = 8/11`, `a' = -14/11`); the drag, absent from the residual, then drives the blade without limit |
| C102 | `hub_lateral_false`, `hub_torque_false`, `hub_moments_false` | Y and Z contain the force in the direction of rotation with the wrong sign (that direction is the negative y-axis): a flat rotor reports both lateral forces with the opposite sign; the torque of coned swept blades and the lateral moments of coned blades omit terms |
| C105 | `evaluate_arrays_false` | the lengths of the arrays are not compared: without derivatives, with one wind speed and several rotational speeds `P = Q*Omega*np.pi/30` (ccblade.py l. 1328) broadcasts, so one thrust and several powers are reported, all with the torque at the first rotational speed; extra entries of `pitch` are ignored |
| C106 | `root_moment_false` | the lever arm of the normal forces is the distance from the rotor axis (bem.f90, `flap_moment = Npfull*z_az`), not from the blade root: for straight blades without cone Mb exceeds the root moment by the hub radius times the thrust of one blade (`root_moment_flat`) |
| C107 | `misalignment_false` | the azimuth average uses blade positions at fixed multiples of 360°/nSector from the upright position: when the turn is not a whole number of sectors (six sectors, tilt replaced by yaw) the averages differ |
| C108 | `integer_hub_station`, `integer_tip_station`, `integer_rotor_false`, `hub_station_unloaded` | integer arrays are copied as integer arrays, and the end stations moved away from hub and tip are cut to whole metres: the first station stays at the hub and carries no load, the last is moved by a whole metre |
| C108 | `integer_inverse_false` | in the inverse analysis with integer radii `self.theta` is an integer array and the twist is cut to whole radians |
| C109 | `iterations_derivatives_false` | the `ValueError` for derivatives with `iterRe` other than 1 is constructed but not raised (ccblade.py ll. 668-669); the derivatives returned are those of one pass, and wrong for the loads returned with them |
| C110 | `whole_rotor_false`, `whole_rotor_lateral_false` | one blade is followed through the sectors and multiplied by the number of blades: with three blades and the default eight sectors the thrust is not that of the three blades over a revolution; with the one sector chosen without tilt, yaw and shear (ccblade.py ll. 607-608) three blades have a lateral moment |
| C111 | `thrust_continuous_false` | where the lift falls with the angle of attack the inflow equation can have several solutions in the bracket; the code takes whichever the root finder returns, and no choice makes the thrust continuous in the wind speed |
| C86 | `array_roundtrip_false` | `fromArray(v.toArray())` raises for scalar components and transposes otherwise |
| C88 | `moment_join_lost` | moments extrapolated from data beginning or ending at a multiple of ten tend to 0 at the data |
| C90 | `airfoil_blend_Re_false` | blended polars outside the range of one airfoil carry averaged Reynolds numbers, possibly repeated |
| C92 | `flap_leftover_false`, `flap_shared_false` | after an exception the temporary files stay; without `multi_run` concurrent calls share them |
| C67 | `cli_chain_false` | no run of `airfoilprep.py` can use the output of another as its source |
| C123 | `airfoil_plot_false` | `Airfoil.plot` in its default mode raises `AttributeError` for every airfoil (`useCM` does not exist) |
| C124 | `inverse_twist_false` | in inverse mode every sector overwrites `self.theta`; with yaw the twist left behind by `evaluate` is the one of the last sector, and does not give the prescribed angle of attack in the others, whose loads are reported for their own twist |
| C129 | `lengths_compared_false` | the constructor does not compare the lengths of `chord`, `theta`, `af` with that of `r` (ccblade.py ll. 554-558): too short a list raises `IndexError` in the loop over the blade, but entries beyond the last radius are ignored without a message, so data with one station too many at the root are read one station off |

Read in the code and not made into theorems: `__residualDerivatives` constructs a `ValueError` without raising it (the
model follows: nothing is raised); the message about NaN loads uses `phi_lower`, unbound for a parked rotor (modelled as the
exception it raises).

## Properties: plan

- **C01** Frame conversions are mutually inverse: model each conversion method; unfold, sin²+cos²=1.
- **C02** Frame conversions are isometries: same model; polynomial identities modulo sin²+cos²=1.
- **C03** Conversions compose by adding angles: addition theorems.
- **C04** Chained conversions carry exact derivatives: model the derivative dictionaries as association lists; induction over the chain with HasDerivAt. The code is wrong when an angle name is repeated: prove the distinct-name theorem and a counterexample.
- **C05** cross_deriv gives the Jacobian of cross: HasDerivAt along every coordinate line.
- **C06** Vector arithmetic is componentwise and consistent: model of the operators; algebra. The operators reset the derivative dictionaries (recorded).
- **C07** Blade geometry agrees with the frame conversions: compare the model of defineCurvature with the model of csystem.
- **C08** Straight blades have a uniform cone angle: atan2 modelled as Complex.arg; arg of a positive multiple of e^{iθ}.
- **C09** Blade path length is a true arc length: induction over stations.
- **C10** Relative inflow equals the documented transformation chain: algebraic comparison of the two models.
- **C11** Inflow scales linearly and has the right shear reference: algebra on the model.
- **C12** Azimuth symmetry of the inflow: algebra and periodicity of sin, cos.
- **C13** Axial induction satisfies its thrust relation: solve the quadratic: field_simp / nlinarith on the Buhl branch.
- **C14** Axial induction is continuous, bounded and monotone: HasDerivAt from both sides, monotonicity via the inverse function k(a); exact conditions on the loss factor for continuity and differentiability at the switch (Props/Exact).
- **C15** Prandtl loss factor lies in (0,1]: range of arccos ∘ exp.
- **C16** Zero residual means a consistent velocity triangle: algebra under the guards.
- **C17** Relative wind speed is consistent at a solution: algebra with the residual equation.
- **C18** BEM options switch off exactly their effect: case analysis.
- **C19** Induction depends only on the inflow ratio: algebra (Vy/Vx).
- **C20** inductionfactors_dv differentiates inductionfactors: HasDerivAt along an arbitrary differentiable curve of inputs, branch by branch.
- **C21** relativewind_dv differentiates relativewind: same technique.
- **C22** windcomponents_dv differentiates windcomponents: same technique, station by station.
- **C23** definecurvature_dv/_dv2 differentiate definecurvature: same technique; derivative of arg.
- **C24** thrusttorque_bv is the adjoint of thrusttorque: dot-product identity between the adjoint code and the tangent of thrustTorque.
- **C25** Derivative kernels return the primal values: definitional comparison of branches.
- **C26** Rotor integration is linear, exact and sign preserving: sumTo lemmas, interval integrals of affine functions.
- **C27** Constructor keeps stations strictly inside hub and tip: model of np.interp and the constructor; order reasoning.
- **C28** Constructor normalises options: case analysis.
- **C29** Tip-station adjustment keeps the station on the blade axis: false in general (precurve tip and radius are tested independently): partial + counterexample + exact condition (Props/Exact).
- **C30** Per-station solve always yields an answer: control-flow model with the root finder as a parameter returning Except; generic in the scalar type.
- **C31** Bracket selection is sound: case analysis + intermediate value theorem.
- **C32** Propeller-brake states are searched with losses enabled: false of the code (acos of an argument above 1): NaN-aware scalar model, negative theorem.
- **C33** A bracketed solution always exists: sign analysis of the residual at the bracket ends; false in general even without NaN: counterexample + partial.
- **C34** Loads at a station are the resolved lift and drag: algebra on __loads.
- **C35** No NaN normal load is returned: control-flow model, any scalar type with an isNaN predicate.
- **C36** A parked rotor in wind still carries load: false of the code when Vy=0: negative theorem + partial + exact condition (Props/Exact).
- **C37** Strip theory: stations are independent: noninterference on the station loop.
- **C38** Residual derivatives are exact: chain rule through the airfoil parameter and C20.
- **C39** Load derivatives are exact total derivatives: chain rule along curves on which the residual vanishes; the inflow angle need only be continuous there (`Lemmas/Implicit.lean`: a continuous solution of an equation that is differentiable along all curves is differentiable).
- **C40** Load derivatives account for Reynolds-number dependence: false of the code (derivatives taken at a different Reynolds number): counterexample.
- **C41** Derivative dictionaries are labelled and scaled correctly: index bookkeeping on the model's matrices; combined with C22.
- **C42** Radial derivatives are diagonal: false with precurve: counterexample; true without precurve.
- **C43** Inverse analysis reproduces the prescribed angle of attack: algebra through the state record.
- **C44** Results do not depend on call history: state machine over call histories.
- **C45** Operating conditions are independent: map structure of the loop.
- **C46** Power, torque and coefficients are consistent: algebra.
- **C47** One sector suffices for axisymmetric inflow: T,Q,P,Mb proved; false for Y,Z,My,Mz: counterexample.
- **C48** Rotor outputs are sector averages of rotated blade loads: sums over sectors; roots of unity.
- **C49** Rotor derivative assembly is exact: bilinear algebra over the assembled sums together with C24; end to end with C41 in `Props/RotorTotal.lean`.
- **C50** Power and coefficient derivatives are exact: quotient rule.
- **C51** Density and speed scaling: similarity through residual function equality.
- **C52** Airfoil tables: single Reynolds number and degenerate input: decision logic of CCAirfoil with the spline as a parameter.
- **C53** max_eff returns the best efficiency: argmax correctness.
- **C54** awayfromstall keeps the margin: argmax correctness; plus loop.
- **C55** Breakpoint search stays in range: index reasoning.
- **C56** Polar.blend interpolates between polars: np.interp/np.union1d models; order reasoning.
- **C57** Airfoil.getPolar clamps and interpolates in Re: model of the search loop.
- **C58** Airfoil is independent of the order of its polars: insertion sort / permutation.
- **C59** extrapolate covers -180..180 and keeps the data: list structure.
- **C60** Viterna extrapolation is continuous at the data ends: field_simp.
- **C61** Extrapolated angles are strictly increasing: false when alpha_low <= -alpha_high or alpha_high = 90; exact conditions for strict
  and for weak order (`extrapolate_increasing_iff`, `extrapolate_sorted_iff`), counterexamples to both.
- **C62** extrapolate rejects what it cannot handle: decision logic.
- **C63** Moment extrapolation never meets an untabulated angle: integer arithmetic on the CM grid.
- **C64** 3-D rotational correction reverts to 2-D data: case analysis on the model of correction3D.
- **C65** AeroDyn reader terminates on every file: total parser on lists of lines.
- **C66** AeroDyn reader recovers well-formed files: render/parse round trip.
- **C67** AeroDyn files written can be read back: false of the code (no newlines written): negative theorem.
- **C68** interpToCommonAlpha and createDataGrid are consistent: list structure.
- **C69** Geometry component is exact: HasDerivAt.
- **C70** Loads component maps loads and Jacobians consistently: table of outputs and partials.
- **C71** Twist component caps inboard twist: list recursion.
- **C72** Lift and drag recovered from loads: trigonometric identity.
- **C73** Evaluate component outputs and Jacobian agree: table of outputs and partials; rho and mu partials are never set: counterexample.
- **C74** Tip-speed ratio convention in the twist component: false of the code (rpm used as rad/s, last station instead of tip): counterexample + partial.
- **C75** Conversions follow the documented axes: Rodrigues rotation about the documented axis as independent specification; trigonometric identities.
- **C76** extrapolate keeps the moment data: list structure; the last row is lost on the ten-degree grid: partial.
- **C77** alpha0 is the zero-lift angle: model of numpy's search in np.interp; its contract on samples in any order.
- **C78** Unsteady parameters exist for every table: counterexample with linear moment curves; exact condition as an equivalence
  (`FlatMoment`, `MomentFeatures`), by running the function forwards and backwards; uniqueness of the break row.
- **C79** The twist component returns for every rotating rotor: composition of the totality theorems along compute.
- **C80** Inverse twist is self-consistent: C43 through the component; false at thick root stations.
- **C81** Declared outputs of the twist component are computed: false, table of assignments.
- **C82** Component Jacobian is the derivative of its outputs: C41 through constructor and component; false where the constructor resamples.
- **C83** Requesting derivatives does not change the values: two-run argument, generic in the scalar type.
- **C84** Evaluate component Jacobian is the derivative of its outputs: `sector_dictionaries` (exact dictionaries of the sector loads at a solved rotor) through C49, C50 and the component; density partials missing.
- **C85** AeroDyn stall parameters: inversion of the do-block; existence once the line is fitted; counterexamples for unit and existence.
- **C86** fromArray and toArray are inverse: model of the array layout; false, row by row true.
- **C87** The components analyse the blade they are given: `Analyses` lists every field of the rotor object in terms of the inputs;
  inversion of the three `compute` functions.
- **C88** Extrapolated pitching moments: inversion of `extrapolate`; values of the table at its nodes, interpolation between
  neighbours. The join is lost at multiples of ten.
- **C89** Airfoil corrections act polar by polar: `mapM` as `Forall₂`; the sort is the identity because Reynolds numbers are kept.
- **C90** Airfoil.blend blends at each Reynolds number: totality of `getPolar` for overlapping tables, monotonicity of the recorded
  Reynolds numbers; counterexample with one polar each.
- **C91** Spanwise outputs of the twist component: inversion of `compute`; `evaluate` keeps `W` of the last azimuth; the statement about
  NaN is generic in the scalars.
- **C92** Flap coordinates: names of the temporary files are distinct and disjoint between processes (suffix of digits); frame of
  each step; XFOIL and the other processes are arbitrary functions on the file system.
- **C93** Command line: `splitext` against a specification of extensions; inversion of each branch; frame condition; default name.
- **C94** The stall angle is where the normal force leaves the line: contract of np.interp on the sampled deviations; counterexample
  with a dip by running numpy's bisection.
- **C95** Unusable input is refused: unfold each function on the malformed input, for every scalar type; pins the kind of exception.
- **C96** Text of AeroDyn files: inversion of `polarText` and `pieces` against `Says`/`RowSays`, which spell out fields and descriptions.
- **C97** Derivatives are numbers: NaN is followed through the station, the dictionaries and the sector loop in any arithmetic with
  `NaNLaws` and `0/0` NaN; the coefficients over `XR` (reals, infinities, NaN), where a value of zero makes the relative form NaN.
- **C98** Declarations: `setup` as a list of `declare_partials` calls with glob patterns, run on the names; the blocks of `compute_partials`
  compared with the result by name, shape and position; influence by following `precurveTip` and `mu` through the constructor and the solve.
- **C99** Units: a relation between a rotor and its description in other units (`Rotor.Conv`) is followed through the kernels, the solve,
  the sectors and the coefficients; the components convert each variable by the factor of the unit in the transcribed tables.
- **C100** Airfoil of a file: reader (C66), common grid (C68) and constructor (C52) composed; distance from the table from the contract of
  the smoothing parameter (sum of squared residuals at most `s`), sharpness by a surface displaced at one point.
- **C101** Betz limit: `4Fk(1-a)³ ≤ 16/27` in the three branches of the induction factor, the velocity triangle at a root of the
  residual (C16) and lift and drag give the limit per station; trapezoidal rule over linear radii for the rotor.
- **C102** Hub loads: a separate specification of a loaded blade (Spec/Resultant: documented frames, cross product, integral along the
  polygon); exact differences between reported and resultant components, signs by a parked, yawed rotor in linear shear.
- **C103** Twist and pitch: twist and pitch enter through their sum only (`relativeWind`, `stationTheta`), carried through stations,
  sectors and conditions; for the derivatives the columns of twist and pitch of the station derivatives agree.
- **C104** Solidity: `inductionFactors` sees `B` and the chord through `B * chord` when both losses are off; the loads scale, the blade
  integrals are linear in the loads (C36) and the sum over blades cancels the factor. Derivatives off; tip factor injective in `B`.
- **C105** Arrays of `evaluate`: the method on three arrays (Model/EvalArrays: indexing in the loop, broadcasting of numpy) against the list
  of conditions of Model/CCBlade; all cases of the lengths. Output arrays only, not the derivative dictionaries.
- **C106** Root moment: the specification of C102 with the moment about the first point of the blade; exact difference for any blade, for
  straight blades `Rhub - r (1 - cos precone)` in the lever arm, for flat blades `Rhub * T / B`.
- **C107** Misalignment: the wind direction in the hub frame as a vector of the specification; a turn of it about the shaft is a shift of the
  azimuth in `windComponents`, then of the sectors; sums over sectors of periodic functions. Counterexample: parked rotor with drag depending
  on the Reynolds number, six sectors.
- **C108** Arrays of whole numbers: the lines of the constructor and of the loop over the blade again for arrays with an element type (`Model/Dtype.lean`; integer arrays keep the truncated value); equal to the other model for doubles; exact condition by comparing the stored arrays; the loads of a station at the hub over `XR`.
- **C109** Several passes for the Reynolds number: for airfoils without Reynolds dependence every pass computes the same, lifted through loads, sectors and conditions, and the derivative theorems follow from those for one pass; a station whose lift is constant below a Reynolds number that only the second pass stays below, whose loads do not change with the twist while the dictionary says they do.
- **C110** The whole rotor: all blades at every position of the first one, loads at their own azimuths (periodic); sums over blades and positions exchanged, each blade a shift of the first when the number of blades divides that of the sectors; an airfoil with drag above a Reynolds number reached only between the eight sectors as counterexample.
- **C111** Continuity: a root that is unique at a parameter varies continuously there (compactness of the bracket), so the hypotheses on neighbouring inflow angles in C41 and C49 follow from uniqueness at the point; a rotor with a falling lift curve (S-shaped relation of inflow angle and wind speed, intermediate value theorem) as counterexample for every root finder.
- **C112** One solution in attached flow: `tan φ/(1-a)` grows with the inflow angle for every loss factor and branch of the thrust relation (momentum, Buhl), Prandtl's factor falls with the angle but `F sin φ` grows (monotonicity of `-log cos y / y²`), so the residual over `cos φ` grows wherever there is lift; hence the sign of the residual on both sides of a solution, the choice of the interval, and independence of the root finder. The fold of C111 shows that falling lift has to be excluded.
- **C113** More wind, more load in attached flow: the equation of C112 reads `tan φ/(1-a) = Vx/Vy (1 - k')` with a growing left side and a growing swirl parameter `k'`, so a larger ratio has a larger solution and the search keeps its interval; the speed is `Vy/((1-k') cos φ)`, hence normal and tangential force grow, and the trapezoidal integrals of a straight blade with them. Lift has to be positive and the ratio of drag to lift must not rise; the stalling section of C111 loses its load as the wind rises (`stalled_load_falls`), so attached flow cannot be dropped.
- **C114** Pitching towards feather unloads the blade in attached flow: the left side of the equation of C112 grows strictly with the lift coefficient, so less lift at each angle moves the solution up, and if the angle of attack did not fall a monotone polar through both states would have two solutions. Without wake rotation `1-a = tan φ Vy/Vx`, the thrust of the annulus is a function of `1-a` and the loss factor (momentum theory and Buhl's parabola, `thrustOf`), and it falls as the first rises and the second falls. With wake rotation (`Props/SwirlThrust`) either the swirl is not larger at the smaller pitch, and the axial momentum balance gives a slower wake; or it is larger, and then so is the blade force `F k = F S cot² φ + σ' cd/(4 sin³ φ)` (`thrust_smaller_angle`); the section at the larger pitch must not brake the rotor. `Props/PitchCurve` replaces the assumption that the stations are solved by the conditions on the data of C122, and adds with C121 that the curves over the pitch are continuous. `Props/Operating` concludes that a thrust is met at one pitch only.
- **C115** Tolerance of the root finder: in attached flow the residual is negative below and positive above the exact angle (C112), so two points without a common sign enclose it; hence the bound. Convergence of the loads: wake factor and swirl are continuous in the angle (also across the switch to Buhl's formula), the three formulas of `relativeWind` for the speed agree at a solution and each is continuous; sums of trapezoids and sectors pass to the limit. The contract `BracketsRoots δ` asks for no continuity and is met by bisection (`someBracket`). In floating point, brentq's promise is `xtol + rtol |x|` in place of `δ`.
- **C116** Wider blades take more thrust in attached flow: the left side of the equation of C112 grows strictly with the chord if the lift is positive (the swirl term if the tangential force is not negative), so the solution moves down; the thrust of the annulus follows as in C114, with or without wake rotation (`thrust_smaller_angle`).
- **C117** Drag with `usecd=False`: the induction factors do not depend on the drag (C18), hence by induction over the passes neither does any pass of `__runBEM` but for the drag it reports; the residual is the same function, so any root finder gives the same angle. The loads follow from C34; for the rotor, trapezoids of ordered loads on an increasing arc length are ordered.
- **C118** Losses: the loss factor divides the force in the wake formula, so with losses the left side of the inflow equation (`sectionSide`) is larger at every angle; it rises with the angle (`sectionSide_lt`), so the root is smaller. Without wake rotation `W² cos²φ = Vy²`, so the forces rise with the angle. Rotor level as in C117. Hypotheses: exact roots, attached flow, lift at the solution.
- **C119** Refinement: on a straight blade the cone angle is `precone` at every station (C08), so the wind and with it the solve at a station depend on its radius only. The blade integrals are trapezoids over the arc length, with no load at hub and tip; per division the trapezoid is off the integral by at most the variation of the load there, and the two end divisions lose at most half the load bound times their length. Uniform continuity gives the limit. The loads need not have limits at hub and tip, where the loss factors vanish: a bounded load is faded out at the ends by `1 - t^(2m)`, and both the trapezoids and the integral of the rest are small. Attached flow gives the continuity between hub and tip (C121 with the radius varying, the airfoil may change along the blade), and with the drag in the residual also the bounds, from the limits of C101. Curved blades are left out: there `defineCurvature` takes the cone angle from differences of neighbouring stations, so a station does notice its neighbours.
- **C120** More sectors: the outputs with `ns` sectors are Riemann sums over the revolution of one blade (C48); uniform continuity of the blade integrals gives the limit, a bounded rate the order `1/ns`. Continuity over the revolution is C121 with only the azimuth varying, the wind being continuous in the azimuth above ground. A rotor in yaw whose loads differ between azimuths is the example.
- **C121** Continuity in attached flow: the equation of C112 in the form `w(φ) = Vx/Vy (1 - S(φ))` with `w` growing and `S` not falling. At a fixed angle both sides converge with the data of the section, so for angles on either side of the limit root the sign is decided for all nearby data, and monotonicity puts the nearby roots between them. `1/(1-a)` is continuous across the switch to Buhl's formula. Speed and forces follow from C113's formula for the speed. The thrust of the stalling rotor of C111 jumps, so attached flow cannot be dropped. `Props/Operating` adds the coefficients of the rotor.
- **C122** Existence in attached flow: with lift `1/(1-a) ≥ 1`, so `w(φ) ≥ tan φ` grows without bound towards 90° while `S` does not fall; the intermediate value theorem gives a root between the starting angle and an angle below 90°, and C112 the signs on either side. At `1 + k = 0` (division by zero, `a = 0` over `ℝ`; over the reals with infinities `1/(1-a) = 0`) the residual is negative all the same, because `tan φ` there is less than at the root. The root finder is only assumed to solve functions with a single sign change (`FindsCrossing`), since with wake rotation the residual jumps at 90°. `attached_operation` replaces the assumption `SolvedWithLift` of C113–C121 by conditions on the data. `power_curve` composes this with C113 and C121: continuous, strictly increasing thrust, root moment, torque and power over the wind speed. `Props/Operating` concludes that a power is met at one wind speed only.
- **C123** Plots: the loops that collect figures are concatenations of blocks of equal length (`flatten_blocks`), so figure `k j + c` belongs to polar `j`. That writing succeeded gives the lengths of the columns; Reynolds numbers are kept by correction, extrapolation and `--common` (C89), so `zip` pairs a polar with its own result.
- **C124** The object after `evaluate`: a call leaves the same object whatever was called before (the attributes it reads are not those it writes, C44), so the loops over sectors and conditions leave the object of the last call. False for the twist of the inverse analysis in yawed flow: with zero prescribed lift the inflow angle is that of the undisturbed wind, which differs between azimuth 0 and 180.
- **C125** Thrust over the rotor speed: `F k = σ' cn/(4 sin² φ)`, and the thrust coefficient of an annulus, `4 F k/w(F, k)²`, grows with `F k` at fixed `F` and with `F` at fixed `F k`. Turning faster lowers the inflow ratio, hence the inflow angle (C113), hence raises `F`, and `F k` by the assumption on the section. That assumption is needed: a section near its angle of zero lift loses thrust as the rotor speeds up (`section_faster_false`). Solvability passes from the higher to every lower speed (C122), continuity is C121. Wake rotation may be on or off, since `F k` and `F` determine the thrust either way. Restricted to `usecd=True`, straight blades in axial wind and airfoils that ignore the Reynolds number.
- **C126** More blades: two cases by the inflow angle with more blades. If it falls, the flow through the disc is slower and the loss factor no smaller, so the momentum thrust of the annulus is larger (`thrustOf_lt`, C114). If it does not fall, each blade is loaded at least as much (`forces_rise`, C113), and there are more of them. The stations are added up as in C113. Restricted to `wakerotation=False`, `usecd=True`, straight blades in axial wind and airfoils that ignore the Reynolds number.
- **C127** More lift: the two cases of C126 with the loss factor fixed. Where the inflow angle falls, momentum decides (C114); where it does not, the section is loaded more because lift and drag are larger at the larger angle (C113). With wake rotation and equal drag the angle always falls, and `thrust_smaller_angle` (C114) decides. Restricted to `usecd=True` and straight blades in axial wind; the order of the airfoils is assumed for inflow angles in the first quadrant only.
- **C128** More drag: the residual at a given angle rises with the drag (`wakeOf_strict`), so the solution moves to a smaller angle (C112). There momentum gives more thrust (`section_slower`), while lift, its inclination and the relative speed all fall, so that the tangential force does too (C113 read backwards). The counterpart for `usecd=False` is C117. Restricted to `wakerotation=False` and straight blades in axial wind.
- **C129** Blade data of different lengths: the loop over the blade again with lists that are indexed (`Model/Lengths`), equal to the other model as long as the indices exist, by induction over the stations; the first missing entry stops the loop; entries behind the last radius are never read.
