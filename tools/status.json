{
 "C04": {
  "note": "Exact for chains with pairwise different angle names. chain_repeated_angle_wrong shows the entry is wrong when a name repeats."
 },
 "C02": {
  "note": "The two profile conversions reverse handedness (profile_reverses_cross), against docs/csystem.rst."
 },
 "C06": {
  "note": "arith_derivatives_stale records that derivative dictionaries are reset or left stale by arithmetic."
 },
 "C14": {
  "status": "partial",
  "note": "Bound and monotonicity proved. The exact conditions at the switch k=2/3: differentiable if and only if the loss factor lies outside [5/6-3e-7, 5/6+3e-7), continuous if and only if it does or is 5/6 (axialInduction_switch_iff); inside the singularity guard is active there and the claim is false (axialInduction_switch_not_differentiable). The guard also breaks monotonicity (axialInduction_guard_not_monotone)."
 },
 "C24": {
  "note": "Holds for every differentiable curve of inputs, blade from hub to tip with distinct consecutive points. The reverse geometry routine assigns a length n-2 slice to a row declared with length n; modelled by its n-2 meaningful elements."
 },
 "C20": {
  "note": "All branches, including the switch between momentum and empirical relation at k = 2/3. Excludes only points where a branch condition changes."
 },
 "C29": {
  "status": "partial",
  "note": "Proved when the last station coincides with the given tip in r, precurve and presweep, or differs in all three (build_axis_partial). False when it coincides in some coordinates only (build_axis_false): precurve and presweep are shifted independently of r. The exact condition: for each offset the last segment is straight, or offset and radius coincide with the tip together (build_axis_iff)."
 },
 "C36": {
  "status": "partial",
  "note": "Proved for stations whose inflow has a tangential component. False for a rotor facing the wind squarely (parked_rotor_false): every load is reported zero. The exact condition per station: both wind components nonzero, or a load that is zero anyway (parked_rotor_iff)."
 },
 "C42": {
  "status": "partial",
  "note": "Proved for the tangential component of every blade and for stations whose neighbours have their precurve (inflow_radius_local). False for curved blades (inflow_radius_false). The exact condition in axial wind at an unswept station: the neighbours have its precurve (inflow_radius_iff)."
 },
 "C43": {
  "note": "The reported angle is the prescribed one at every station whose inflow has both components; elsewhere the code reports 0 and only the twist identity holds."
 },
 "C40": {
  "status": "partial",
  "note": "False for airfoils depending on the Reynolds number (loads_total_derivative_Re_false): values use the Reynolds number of the undisturbed flow, derivatives that of the disturbed flow. secDerivs_gap gives the exact error and loads_total_derivative_Re_partial the exact condition under which the derivatives are right."
 },
 "C47": {
  "status": "partial",
  "note": "T, Q, P, Mb, Mz, W and the coefficients of T, Q, P are independent of the number of sectors (one_sector_partial). The claim is false for Y, Z and My: with one sector they are the values of a single azimuth and not zero (one_sector_false)."
 },
 "C56": {
  "note": "For tables with increasing angles. Weight 0 does not return the polar itself when the ranges differ (blend_zero_not_self)."
 },
 "C57": {
  "status": "partial",
  "note": "Clamping and blending proved for every Reynolds number. The stored polar at a stored inner Re is returned only as a curve (getPolar_stored_partial): the code blends with the neighbour below, which cuts the range (getPolar_stored_false)."
 },
 "C59": {
  "note": "For at least two points per segment. The drag of data rows below cdmin is raised to cdmin, as the property's last clause demands."
 },
 "C60": {
  "note": "For data ending between 1e-4 rad and 90 degrees. The curves do not depend on the number of sample points. At the low end the curve meets the data only if these start above minus their end."
 },
 "C61": {
  "status": "partial",
  "note": "Exact conditions proved for accepted data from L to H degrees: strictly increasing iff H < 90 and -H < L, never decreasing iff 0 <= H. False in general: every table starting at or below minus its end gets its first angle twice (extrapolate_duplicate, extrapolate_increasing_false), and a table of negative angles is not even sorted (extrapolate_sorted_false)."
 },
 "C62": {
  "status": "partial",
  "note": "Exact condition proved. It has one more case than claimed: a single row with non-zero moment raises IndexError (extrapolate_raises_false)."
 },
 "C63": {
  "note": "In exact arithmetic; the grid angles are multiples of ten and the comparisons are exact."
 },
 "C64": {
  "note": "np.polyfit is a parameter; fitted slope non-zero. Beyond 90 degrees the correction returns and exceeds the full one (correction3D_returns)."
 },
 "C76": {
  "status": "partial",
  "note": "Proved except for the last data row. That row is kept if its angle is not a multiple of ten degrees and otherwise replaced by 0 (cm_last_row_lost)."
 },
 "C52": {
  "note": "The spline routine is a parameter; independence of Re assumes of it that a table with equal columns is fitted by a surface constant along the columns (SplineFit.KeepsConstancy)."
 },
 "C53": {
  "note": "For increasing tables and positive drag on the grid; a table whose same row is nearest to -20 and 40 degrees is treated as a cylinder (maxEff_cylinder)."
 },
 "C54": {
  "note": "For increasing tables; cylinders get angle 0 whatever the margin."
 },
 "C55": {
  "note": "The index range holds for every scalar type, NaN included; the choice of the row over the reals."
 },
 "C77": {
  "note": "For every lift curve that changes sign between the rows; constant lift and lift of one sign are covered too. numpy's search is modelled from numpy's source, which is not part of the repository."
 },
 "C78": {
  "status": "partial",
  "note": "Proved: the exact condition on increasing tables with a known zero-lift angle (evalUnsteady_exists_iff): success if and only if the moment is flat or its curve has the minima and the break point the code looks for; tables whose rows nearest to -30 and 30 degrees coincide are refused. False in general: every table with moment linear in the angle is refused (evalUnsteady_linear_moment, evalUnsteady_total_false). With lift that changes sign several times the zero-lift angle is one of its upward crossings, and the same condition holds for it (evalUnsteady_exists_any)."
 },
 "C71": {
  "note": "The interpolation is a parameter; the bound with smoothing assumes it stays below every bound of its data (ShapePreserving)."
 },
 "C74": {
  "status": "partial",
  "note": "Proved with the last station radius in place of the tip radius (tip_speed_partial) and with the speed scaled by the unit factor (twist_reynolds_partial). False as stated: the speed is based on r[-1], not on Rtip (tip_speed_false), and the Reynolds number takes the rotor speed in rpm as if it were rad/s (twist_reynolds_false)."
 },
 "C79": {
  "note": "Conditions listed in the structure TwistReady; spline fit, interpolation and root finder are parameters."
 },
 "C80": {
  "status": "partial",
  "note": "Proved for axisymmetric inflow, airfoils without Reynolds dependence, stations from the first thin one outwards below the twist limit. False at thick root stations (twist_root_false): their angle of attack is overwritten but not their lift and drag."
 },
 "C81": {
  "status": "partial",
  "note": "False: the four outputs are zero for all inputs, although the moment coefficient of the same call is not (twist_outputs_false)."
 },
 "C70": {
  "note": "Every declared input; the Jacobian is the one stored by the last successful compute (loads_component_stale)."
 },
 "C82": {
  "status": "partial",
  "note": "Proved for blades that end neither at the hub nor at the tip, and for every blade along curves that keep radii, precurve, hub and tip radius. False at a blade beginning at the hub radius, where the constructor moves the first station (loads_component_jacobian_false)."
 },
 "C83": {
  "note": "For every scalar type, floating point included. The converse (a call without derivatives returns the same with them, or ValueError) for distributedAeroLoads and for evaluate."
 },
 "C73": {
  "note": "The numbers of compute (derivatives off) are those of the differentiated analysis (C83)."
 },
 "C84": {
  "status": "partial",
  "note": "Proved from end to end (evaluate_component_total_partial) for blades that end neither at the hub nor at the tip, airfoils without Reynolds dependence and states that do not change between axisymmetric and not; coefficients where the quantity is not zero. False for density, whose declared partials are never assigned (evaluate_component_density_false)."
 },
 "C85": {
  "status": "partial",
  "note": "Proved: line, stall values, stall range, least drag; the parameters exist once the line can be fitted (unsteadyparam_exists). False: the angle of least drag is in radians (unsteadyparam_degrees_false); tables without rows in the linear range raise because all rows are counted (unsteadyparam_exists_false). The stall angle itself is C94."
 },
 "C67": {
  "status": "partial",
  "note": "False as stated: the writer emits no line ends, so every written file raises IndexError when read (aerodyn_roundtrip_false). aerodyn_roundtrip_partial: with the line ends put back, reading gives the tables on the common angle grid rounded to the written decimals. A consequence: runs of the command line cannot be chained (cli_chain_false)."
 },
 "C65": {
  "note": "Relative to Lex, the lexer of int() and float(), which is a parameter."
 },
 "C32": {
  "status": "partial",
  "note": "False with losses (brake_solutions_false, brake_solution_missed_false): the loss factor is NaN at every negative inflow angle, over any arithmetic with IEEE NaN (brake_region_skipped). brake_solutions_partial: without losses the region is searched."
 },
 "C33": {
  "status": "partial",
  "note": "False in general (bracket_exists_false, losses off, no drag). The exact condition in terms of the residual at the ends of the brackets: bracket_iff_partial (drag at 90 degrees not negative). In terms of lift and drag: bracket_exists_ordinary_partial (negative lift just above 0 degrees, the ordinary case) and bracket_exists_partial (lift just below 180 degrees above drag over speed ratio)."
 },
 "C86": {
  "status": "partial",
  "note": "False: for scalar components toArray gives a 1x3 array, whose fromArray raises IndexError; for three or more vectors the rows are transposed. Proved: fromArray of one row of toArray reproduces the vector."
 },
 "C05": {
  "note": "The dictionaries use the names passed in; the theorem needs two different names (with equal names entries overwrite each other, cross_deriv_same_name)."
 },
 "C41": {
  "note": "The dictionary holds only the diagonal of the radial Jacobian; on curved blades loads also depend on the radii of the neighbours (C42)."
 },
 "C88": {
  "status": "partial",
  "note": "False where the data begin or end at a multiple of ten degrees: there the table has a second row with moment 0 and the extrapolated curve tends to 0 instead of the datum. Proved: values at all tabulated angles outside the data, linearity in between, rows of the data, joining formula at the upper end."
 },
 "C90": {
  "status": "partial",
  "note": "False: outside the range of one airfoil the end polar keeps its own Reynolds number, which is averaged with the other; blending data at 1 with data at 2 gives two polars at 3/2. Proved: one polar per Reynolds number, which polars are blended, their Reynolds number in general and that it is the requested one inside both ranges."
 },
 "C92": {
  "status": "partial",
  "note": "False: when the call raises (XFOIL missing or its file unreadable) the files with the coordinates and the commands stay (flap_leftover_false); without multi_run concurrent calls share their files (flap_shared_false). Everything else is proved."
 },
 "C94": {
  "status": "partial",
  "note": "Proved: the stall angle is a crossing of the threshold (or an end of the sampled range), and the first one if the deviation crosses once. False in general: with a normal force that dips and recovers a later crossing is reported (unsteadyparam_first_false)."
 },
 "C96": {
  "status": "partial",
  "note": "Proved: header, count, and every line of every polar with its value, description and field widths. False: the value beside 'Angle of attack for minimum CD (deg)' is in radians (aerodyn_text_false)."
 },
 "C97": {
  "status": "partial",
  "note": "Proved: at a station with wind and nonzero tangential coefficient the derivatives are numbers if loads, airfoil slopes and derivatives of the residual are. False in general: a station where a wind component is zero has zero loads and NaN derivatives, and with it the whole rotor (noWind_dictionary_nan, noWind_rotor_nan); NaN loads are replaced by zero, their derivatives are not (masked_station_nan); zero tangential coefficient (zero_ct_station_nan); coefficients that are zero: CMz without tilt, yaw and shear, CZ of straight blades, CP of parked rotors (zero_coefficient_nan and its instances)."
 },
 "C98": {
  "status": "partial",
  "note": "Proved for every scalar type: setup succeeds and declares exactly the blocks listed; the assigned blocks are declared, of the right shapes and inside the declared positions; all declared blocks are assigned, except rho and mu in CCBladeEvaluate (evaluate_declarations). mu has no influence for airfoils without Reynolds dependence (rho has one: C84). False for precurveTip in CCBladeLoads, which has no derivative and no exemption in the documentation and changes the loads where it equals the last entry of precurve (loads_precurveTip_false); no influence elsewhere (loads_precurveTip_partial)."
 },
 "C99": {
  "status": "partial",
  "note": "Proved for CCBlade and for all outputs of the components but one. False for Mb of CCBladeEvaluate, which is a moment and announced in N/m (evaluate_component_Mb_false); it is proved to change like a moment. (T of CCBladeTwist is announced in N*m though it is the thrust; it is never assigned and stays zero.) Over the real numbers, without rounding."
 },
 "C100": {
  "status": "proved",
  "note": "The bound by the smoothing parameter assumes what the documentation of RectBivariateSpline says about s (SplineFit.Close); airfoil_file_exact_false shows that nothing better follows from it. Over the real numbers, without rounding."
 },
 "C101": {
  "status": "partial",
  "note": "False for stations solved beyond 90 degrees with an axial induction factor above one (evaluate_betz_false: reported CP 24.96 without a warning), and, for the bound at a single station, for solutions beyond 90 degrees of a residual with wake rotation but without drag (station_betz_no_drag_false: no limit at all). Proved for all other solutions, including the propeller-brake region. The root finder returns exact roots; real arithmetic."
 },
 "C102": {
  "status": "partial",
  "note": "True of the thrust for all blades, of the torque for blades without sweep, of My and Mz for straight blades without cone and sweep. False otherwise: the tangential force enters Y and Z with the wrong sign (hub_lateral_error, hub_lateral_opposite, hub_lateral_false); torque of a coned swept blade (hub_torque_false) and moments of a coned blade (hub_moments_false). Integrals by the trapezoidal rule along the polygon of stations, as in the code."
 },
 "C105": {
  "status": "partial",
  "note": "True for Omega as long as Uinf and pitch at least as long, dictionaries included; refused when Omega or pitch is shorter, when Omega is longer and Uinf has not exactly one entry, and with derivatives whenever Omega and Uinf differ in length. False without derivatives for one wind speed and several rotational speeds: accepted, one thrust, several powers with the torque at the first (evaluate_arrays_one, evaluate_arrays_false); longer pitch arrays are accepted and ignored."
 },
 "C106": {
  "status": "partial",
  "note": "True for straight blades without cone that begin at the rotor axis (root_moment_partial). False otherwise: the moment is taken with the distance from the rotor axis; exact differences in root_moment_error, root_moment_straight, root_moment_flat; counterexample root_moment_false."
 },
 "C107": {
  "status": "partial",
  "note": "True station by station (loads_wind_turned), and for the rotor outputs when the turn is a whole number of sectors (wind_turned_partial; opposite_misalignment_partial for even, yaw_as_tilt_partial for multiples of four; wind_turned_ok for success). False for other numbers of sectors: misalignment_false (six sectors, yaw against tilt)."
 },
 "C108": {
  "status": "partial",
  "note": "Exact condition proved for the constructor (integer_rotor_iff_partial) and for the inverse analysis (integer_inverse_iff_partial); after the construction the type has no influence on the direct analysis. False: with integer radii a blade under 100 m that begins at the hub keeps its first station at the hub (integer_hub_station), where it carries no load (hub_station_unloaded), one that ends at the tip has its last station moved by one metre (integer_tip_station), and the inverse analysis cuts the twist to whole radians (integer_inverse_false)."
 },
 "C109": {
  "status": "partial",
  "note": "Proved for airfoils without dependence on the Reynolds number (values, derivatives, exceptions, both methods; the dictionaries are exact for every positive number of passes). For other airfoils false (iterations_derivatives_false): the ValueError is constructed without raise and the derivatives of one pass are reported (iterations_residual_partial)."
 },
 "C110": {
  "status": "partial",
  "note": "Proved when the number of sectors is a multiple of the number of blades (whole_rotor_partial), and for thrust, torque and power without tilt, yaw and shear (whole_rotor_axisymmetric_partial). False otherwise: whole_rotor_false (three blades and the default eight sectors: thrust), whole_rotor_lateral_false (the single sector chosen by the constructor: lateral moment)."
 },
 "C111": {
  "status": "partial",
  "note": "Proved where the inflow equation of the station (of all stations and sectors) has one solution (loads_continuous_partial, rotor_continuous_partial): solved without a warning, loads and outputs continuous, dictionaries exact, for every root finder that solves continuous functions with a change of sign. False otherwise (thrust_continuous_false): with a continuous lift curve that falls beyond an angle of attack no root finder gives a thrust continuous in the wind speed."
 },
 "C123": {
  "status": "partial",
  "note": "Airfoil.plot with the default single_figure=True raises AttributeError for every airfoil (airfoil_plot_false): it reads useCM, which no polar has. The other mode, Polar.plot and --plot are proved in full."
 },
 "C124": {
  "status": "partial",
  "note": "The state left behind is proved for all inflows (evaluate_state, inverse_twist_last). The twist of the inverse analysis fits every sector without tilt, yaw and shear (inverse_twist_partial); false with yaw (inverse_twist_false): each sector replaces self.theta, and the one of the last sector stays."
 },
 "C129": {
  "status": "partial",
  "note": "Lists with an entry for every radius give the result of the blade they describe (listed_reads_partial, evaluate_reads_partial); a shorter list raises, on a turning rotor IndexError (listed_short_partial, evaluate_short_partial, listed_short_index_partial). False for longer lists (lengths_compared_false): the code never compares the lengths, and further entries are ignored (listed_longer, evaluate_longer)."
 }
}