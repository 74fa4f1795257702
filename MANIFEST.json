{
 "claims": [
  {
   "property": "C01",
   "status": "proved",
   "theorems": [
    "Verif.conv_roundtrip"
   ],
   "note": ""
  },
  {
   "property": "C02",
   "status": "proved",
   "theorems": [
    "Verif.conv_dot",
    "Verif.conv_cross",
    "Verif.profile_reverses_cross",
    "Verif.conv_linear"
   ],
   "note": "The two profile conversions reverse handedness (profile_reverses_cross), against docs/csystem.rst."
  },
  {
   "property": "C03",
   "status": "proved",
   "theorems": [
    "Verif.conv_add",
    "Verif.conv_zero",
    "Verif.conv_periodic"
   ],
   "note": ""
  },
  {
   "property": "C04",
   "status": "proved",
   "theorems": [
    "Verif.chain_angle_deriv",
    "Verif.chain_component_deriv",
    "Verif.chain_no_other_key",
    "Verif.chain_repeated_angle_wrong",
    "Verif.arith_derivatives_stale"
   ],
   "note": "Exact for chains with pairwise different angle names. chain_repeated_angle_wrong shows the entry is wrong when a name repeats."
  },
  {
   "property": "C05",
   "status": "proved",
   "theorems": [
    "Verif.cross_deriv_array_correct",
    "Verif.cross_deriv_rows",
    "Verif.cross_deriv_same_name"
   ],
   "note": "The dictionaries use the names passed in; the theorem needs two different names (with equal names entries overwrite each other, cross_deriv_same_name)."
  },
  {
   "property": "C06",
   "status": "proved",
   "theorems": [
    "Verif.arith_componentwise",
    "Verif.arith_inplace",
    "Verif.arith_laws",
    "Verif.arith_derivatives_stale"
   ],
   "note": "arith_derivatives_stale records that derivative dictionaries are reset or left stale by arithmetic."
  },
  {
   "property": "C07",
   "status": "proved",
   "theorems": [
    "Verif.azCoords_eq_conversion",
    "Verif.azCoords_back"
   ],
   "note": ""
  },
  {
   "property": "C08",
   "status": "proved",
   "theorems": [
    "Verif.cone_of_straight_blade"
   ],
   "note": ""
  },
  {
   "property": "C09",
   "status": "proved",
   "theorems": [
    "Verif.pathLength_increments",
    "Verif.pathLength_ge",
    "Verif.pathLength_precone"
   ],
   "note": ""
  },
  {
   "property": "C10",
   "status": "proved",
   "theorems": [
    "Verif.windComponents_eq_spec",
    "Verif.windComponents_eq_directionVector"
   ],
   "note": ""
  },
  {
   "property": "C11",
   "status": "proved",
   "theorems": [
    "Verif.windComponents_linear",
    "Verif.windComponents_no_shear",
    "Verif.windComponents_at_hub_height"
   ],
   "note": ""
  },
  {
   "property": "C12",
   "status": "proved",
   "theorems": [
    "Verif.windComponents_azimuth_symmetric",
    "Verif.windComponents_azimuth_periodic"
   ],
   "note": ""
  },
  {
   "property": "C13",
   "status": "proved",
   "theorems": [
    "Verif.axialInduction_thrust",
    "Verif.inductionFactors_thrust",
    "Verif.axialInduction_guard_error"
   ],
   "note": ""
  },
  {
   "property": "C14",
   "status": "partial",
   "theorems": [
    "Verif.axialInduction_switch_iff",
    "Verif.axialInduction_lt_one",
    "Verif.axialInduction_strictMono",
    "Verif.axialInduction_switch_partial",
    "Verif.axialInduction_switch_not_differentiable",
    "Verif.axialInduction_guard_not_monotone"
   ],
   "note": "Bound and monotonicity proved. The exact conditions at the switch k=2/3: differentiable if and only if the loss factor lies outside [5/6-3e-7, 5/6+3e-7), continuous if and only if it does or is 5/6 (axialInduction_switch_iff); inside the singularity guard is active there and the claim is false (axialInduction_switch_not_differentiable). The guard also breaks monotonicity (axialInduction_guard_not_monotone)."
  },
  {
   "property": "C15",
   "status": "proved",
   "theorems": [
    "Verif.loss_factors_range",
    "Verif.lossSpec_range"
   ],
   "note": ""
  },
  {
   "property": "C16",
   "status": "proved",
   "theorems": [
    "Verif.residual_zero_iff_triangle",
    "Verif.residual_zero_iff_triangle_brake"
   ],
   "note": ""
  },
  {
   "property": "C17",
   "status": "proved",
   "theorems": [
    "Verif.relativeWind_at_solution",
    "Verif.relativeWind_at_root"
   ],
   "note": ""
  },
  {
   "property": "C18",
   "status": "proved",
   "theorems": [
    "Verif.options_effect",
    "Verif.options_wake_same_axial",
    "Verif.options_wake_residual"
   ],
   "note": ""
  },
  {
   "property": "C19",
   "status": "proved",
   "theorems": [
    "Verif.inductionFactors_scale"
   ],
   "note": ""
  },
  {
   "property": "C20",
   "status": "proved",
   "theorems": [
    "Verif.inductionFactorsDv_correct",
    "Verif.inductionFactorsDv_linear"
   ],
   "note": "All branches, including the switch between momentum and empirical relation at k = 2/3. Excludes only points where a branch condition changes."
  },
  {
   "property": "C21",
   "status": "proved",
   "theorems": [
    "Verif.relativeWindDv_correct",
    "Verif.relativeWindDv_linear"
   ],
   "note": ""
  },
  {
   "property": "C22",
   "status": "proved",
   "theorems": [
    "Verif.windComponentsDv_correct",
    "Verif.windComponentsDv_linear"
   ],
   "note": ""
  },
  {
   "property": "C23",
   "status": "proved",
   "theorems": [
    "Verif.defineCurvatureDv2_correct",
    "Verif.defineCurvatureDv2_path",
    "Verif.defineCurvatureDv2_linear"
   ],
   "note": ""
  },
  {
   "property": "C24",
   "status": "proved",
   "theorems": [
    "Verif.thrustTorqueBv_correct"
   ],
   "note": "Holds for every differentiable curve of inputs, blade from hub to tip with distinct consecutive points. The reverse geometry routine assigns a length n-2 slice to a row declared with length n; modelled by its n-2 meaningful elements."
  },
  {
   "property": "C25",
   "status": "proved",
   "theorems": [
    "Verif.defineCurvatureDv2_values",
    "Verif.windComponentsDv_values",
    "Verif.inductionFactorsDv_values",
    "Verif.relativeWindDv_values"
   ],
   "note": ""
  },
  {
   "property": "C26",
   "status": "proved",
   "theorems": [
    "Verif.thrustTorque_eq_integral",
    "Verif.thrustTorque_linear",
    "Verif.thrustTorque_zero",
    "Verif.thrust_nonneg"
   ],
   "note": ""
  },
  {
   "property": "C27",
   "status": "proved",
   "theorems": [
    "Verif.build_stations"
   ],
   "note": ""
  },
  {
   "property": "C28",
   "status": "proved",
   "theorems": [
    "Verif.build_total",
    "Verif.build_no_precurve",
    "Verif.build_no_presweep",
    "Verif.build_nSector",
    "Verif.build_rotorR"
   ],
   "note": ""
  },
  {
   "property": "C29",
   "status": "partial",
   "theorems": [
    "Verif.build_axis_partial",
    "Verif.build_axis_false",
    "Verif.build_axis_iff"
   ],
   "note": "Proved when the last station coincides with the given tip in r, precurve and presweep, or differs in all three (build_axis_partial). False when it coincides in some coordinates only (build_axis_false): precurve and presweep are shifted independently of r. The exact condition: for each offset the last segment is straight, or offset and radius coincide with the tip together (build_axis_iff)."
  },
  {
   "property": "C30",
   "status": "proved",
   "theorems": [
    "Verif.distributedAeroLoads_finds",
    "Verif.distributedAeroLoads_standstill",
    "Verif.distributedAeroLoads_raises"
   ],
   "note": ""
  },
  {
   "property": "C31",
   "status": "proved",
   "theorems": [
    "Verif.bracket_choice",
    "Verif.bracket_root"
   ],
   "note": ""
  },
  {
   "property": "C32",
   "status": "partial",
   "theorems": [
    "Verif.brake_region_skipped",
    "Verif.brake_solutions_false",
    "Verif.brake_solution_missed_false",
    "Verif.brake_solutions_partial"
   ],
   "note": "False with losses (brake_solutions_false, brake_solution_missed_false): the loss factor is NaN at every negative inflow angle, over any arithmetic with IEEE NaN (brake_region_skipped). brake_solutions_partial: without losses the region is searched."
  },
  {
   "property": "C33",
   "status": "partial",
   "theorems": [
    "Verif.bracket_exists_partial",
    "Verif.bracket_iff_partial",
    "Verif.bracket_exists_ordinary_partial",
    "Verif.bracket_exists_false"
   ],
   "note": "False in general (bracket_exists_false, losses off, no drag). The exact condition in terms of the residual at the ends of the brackets: bracket_iff_partial (drag at 90 degrees not negative). In terms of lift and drag: bracket_exists_ordinary_partial (negative lift just above 0 degrees, the ordinary case) and bracket_exists_partial (lift just below 180 degrees above drag over speed ratio)."
  },
  {
   "property": "C34",
   "status": "proved",
   "theorems": [
    "Verif.distributedAeroLoads_forces",
    "Verif.distributedAeroLoads_coefficients",
    "Verif.distributedAeroLoads_speed"
   ],
   "note": ""
  },
  {
   "property": "C35",
   "status": "proved",
   "theorems": [
    "Verif.distributedAeroLoads_no_nan",
    "Verif.solveStation_nan"
   ],
   "note": ""
  },
  {
   "property": "C36",
   "status": "partial",
   "theorems": [
    "Verif.parked_rotor_iff",
    "Verif.parked_rotor_partial",
    "Verif.parked_rotor_false"
   ],
   "note": "Proved for stations whose inflow has a tangential component. False for a rotor facing the wind squarely (parked_rotor_false): every load is reported zero. The exact condition per station: both wind components nonzero, or a load that is zero anyway (parked_rotor_iff)."
  },
  {
   "property": "C37",
   "status": "proved",
   "theorems": [
    "Verif.distributedAeroLoads_strip"
   ],
   "note": ""
  },
  {
   "property": "C38",
   "status": "proved",
   "theorems": [
    "Verif.residualDerivatives_correct"
   ],
   "note": ""
  },
  {
   "property": "C39",
   "status": "proved",
   "theorems": [
    "Verif.inflow_angle_derivative",
    "Verif.loads_total_derivative",
    "Verif.loads_total_derivative_continuous",
    "Verif.parked_total_derivative"
   ],
   "note": ""
  },
  {
   "property": "C40",
   "status": "partial",
   "theorems": [
    "Verif.loads_total_derivative_Re_partial",
    "Verif.loads_total_derivative_Re_false",
    "Verif.secDerivs_gap"
   ],
   "note": "False for airfoils depending on the Reynolds number (loads_total_derivative_Re_false): values use the Reynolds number of the undisturbed flow, derivatives that of the disturbed flow. secDerivs_gap gives the exact error and loads_total_derivative_Re_partial the exact condition under which the derivatives are right."
  },
  {
   "property": "C41",
   "status": "proved",
   "theorems": [
    "Verif.loads_dictionary",
    "Verif.loads_dictionary_shape"
   ],
   "note": "The dictionary holds only the diagonal of the radial Jacobian; on curved blades loads also depend on the radii of the neighbours (C42)."
  },
  {
   "property": "C42",
   "status": "partial",
   "theorems": [
    "Verif.inflow_radius_local",
    "Verif.inflow_radius_iff",
    "Verif.inflow_radius_partial",
    "Verif.inflow_radius_tangential",
    "Verif.inflow_radius_false"
   ],
   "note": "Proved for the tangential component of every blade and for stations whose neighbours have their precurve (inflow_radius_local). False for curved blades (inflow_radius_false). The exact condition in axial wind at an unswept station: the neighbours have its precurve (inflow_radius_iff)."
  },
  {
   "property": "C43",
   "status": "proved",
   "theorems": [
    "Verif.inverse_alpha"
   ],
   "note": "The reported angle is the prescribed one at every station whose inflow has both components; elsewhere the code reports 0 and only the twist identity holds."
  },
  {
   "property": "C44",
   "status": "proved",
   "theorems": [
    "Verif.call_history",
    "Verif.call_design"
   ],
   "note": ""
  },
  {
   "property": "C45",
   "status": "proved",
   "theorems": [
    "Verif.evaluate_conditions",
    "Verif.evaluate_conditions_ok",
    "Verif.evaluate_perm"
   ],
   "note": ""
  },
  {
   "property": "C46",
   "status": "proved",
   "theorems": [
    "Verif.power_coefficients",
    "Verif.power_torque_coefficient"
   ],
   "note": ""
  },
  {
   "property": "C47",
   "status": "partial",
   "theorems": [
    "Verif.one_sector_partial",
    "Verif.one_sector_false"
   ],
   "note": "T, Q, P, Mb, Mz, W and the coefficients of T, Q, P are independent of the number of sectors (one_sector_partial). The claim is false for Y, Z and My: with one sector they are the values of a single azimuth and not zero (one_sector_false)."
  },
  {
   "property": "C48",
   "status": "proved",
   "theorems": [
    "Verif.sector_averages",
    "Verif.sector_averages_uniform"
   ],
   "note": ""
  },
  {
   "property": "C49",
   "status": "proved",
   "theorems": [
    "Verif.rotor_dictionary",
    "Verif.rotor_dictionary_total"
   ],
   "note": ""
  },
  {
   "property": "C50",
   "status": "proved",
   "theorems": [
    "Verif.power_dictionary",
    "Verif.force_coefficient_dictionary",
    "Verif.moment_coefficient_dictionary",
    "Verif.power_coefficient_dictionary"
   ],
   "note": ""
  },
  {
   "property": "C51",
   "status": "proved",
   "theorems": [
    "Verif.loads_similarity",
    "Verif.rotor_similarity"
   ],
   "note": ""
  },
  {
   "property": "C52",
   "status": "proved",
   "theorems": [
    "Verif.airfoil_needs_two_angles",
    "Verif.airfoil_fits",
    "Verif.airfoil_single_Re",
    "Verif.airfoil_values",
    "Verif.airfoil_derivatives",
    "Verif.airfoil_single_Re_exact"
   ],
   "note": "The spline routine is a parameter; independence of Re assumes of it that a table with equal columns is fitted by a surface constant along the columns (SplineFit.KeepsConstancy)."
  },
  {
   "property": "C53",
   "status": "proved",
   "theorems": [
    "Verif.maxEff_best",
    "Verif.maxEff_cylinder"
   ],
   "note": "For increasing tables and positive drag on the grid; a table whose same row is nearest to -20 and 40 degrees is treated as a cylinder (maxEff_cylinder)."
  },
  {
   "property": "C54",
   "status": "proved",
   "theorems": [
    "Verif.awayFromStall_margin",
    "Verif.awayFromStall_cylinder"
   ],
   "note": "For increasing tables; cylinders get angle 0 whatever the margin."
  },
  {
   "property": "C55",
   "status": "proved",
   "theorems": [
    "Verif.findBreakpoint_range",
    "Verif.findBreakpoint_best",
    "Verif.evalUnsteady_rows"
   ],
   "note": "The index range holds for every scalar type, NaN included; the choice of the row over the reals."
  },
  {
   "property": "C56",
   "status": "proved",
   "theorems": [
    "Verif.blend_spec",
    "Verif.blend_between",
    "Verif.blend_ends",
    "Verif.blend_swap"
   ],
   "note": "For tables with increasing angles. Weight 0 does not return the polar itself when the ranges differ (blend_zero_not_self)."
  },
  {
   "property": "C57",
   "status": "partial",
   "theorems": [
    "Verif.getPolar_spec",
    "Verif.getPolar_stored_partial",
    "Verif.getPolar_stored_false"
   ],
   "note": "Clamping and blending proved for every Reynolds number. The stored polar at a stored inner Re is returned only as a curve (getPolar_stored_partial): the code blends with the neighbour below, which cuts the range (getPolar_stored_false)."
  },
  {
   "property": "C58",
   "status": "proved",
   "theorems": [
    "Verif.airfoil_sorted",
    "Verif.airfoil_perm"
   ],
   "note": ""
  },
  {
   "property": "C59",
   "status": "proved",
   "theorems": [
    "Verif.extrapolate_keeps"
   ],
   "note": "For at least two points per segment. The drag of data rows below cdmin is raised to cdmin, as the property's last clause demands."
  },
  {
   "property": "C60",
   "status": "proved",
   "theorems": [
    "Verif.extrapolate_continuous"
   ],
   "note": "For data ending between 1e-4 rad and 90 degrees. The curves do not depend on the number of sample points. At the low end the curve meets the data only if these start above minus their end."
  },
  {
   "property": "C61",
   "status": "partial",
   "theorems": [
    "Verif.extrapolate_increasing_partial",
    "Verif.extrapolate_duplicate",
    "Verif.extrapolate_increasing_false",
    "Verif.extrapolate_sorted_iff",
    "Verif.extrapolate_increasing_iff",
    "Verif.extrapolate_sorted_false"
   ],
   "note": "Exact conditions proved for accepted data from L to H degrees: strictly increasing iff H < 90 and -H < L, never decreasing iff 0 <= H. False in general: every table starting at or below minus its end gets its first angle twice (extrapolate_duplicate, extrapolate_increasing_false), and a table of negative angles is not even sorted (extrapolate_sorted_false)."
  },
  {
   "property": "C62",
   "status": "partial",
   "theorems": [
    "Verif.extrapolate_raises_partial",
    "Verif.extrapolate_raises_false"
   ],
   "note": "Exact condition proved. It has one more case than claimed: a single row with non-zero moment raises IndexError (extrapolate_raises_false)."
  },
  {
   "property": "C63",
   "status": "proved",
   "theorems": [
    "Verif.cm_no_complaint"
   ],
   "note": "In exact arithmetic; the grid angles are multiples of ten and the comparisons are exact."
  },
  {
   "property": "C64",
   "status": "proved",
   "theorems": [
    "Verif.correction3D_spec",
    "Verif.correction3D_reverts",
    "Verif.correction3D_returns"
   ],
   "note": "np.polyfit is a parameter; fitted slope non-zero. Beyond 90 degrees the correction returns and exceeds the full one (correction3D_returns)."
  },
  {
   "property": "C65",
   "status": "proved",
   "theorems": [
    "Verif.aerodyn_reader_ends",
    "Verif.aerodyn_reader_marks"
   ],
   "note": "Relative to Lex, the lexer of int() and float(), which is a parameter."
  },
  {
   "property": "C66",
   "status": "proved",
   "theorems": [
    "Verif.aerodyn_reader",
    "Verif.aerodyn_reader_sound"
   ],
   "note": ""
  },
  {
   "property": "C67",
   "status": "partial",
   "theorems": [
    "Verif.aerodyn_roundtrip_false",
    "Verif.aerodyn_roundtrip_partial",
    "Verif.cli_chain_false"
   ],
   "note": "False as stated: the writer emits no line ends, so every written file raises IndexError when read (aerodyn_roundtrip_false). aerodyn_roundtrip_partial: with the line ends put back, reading gives the tables on the common angle grid rounded to the written decimals. A consequence: runs of the command line cannot be chained (cli_chain_false)."
  },
  {
   "property": "C68",
   "status": "proved",
   "theorems": [
    "Verif.interpToCommonAlpha_spec",
    "Verif.createDataGrid_spec"
   ],
   "note": ""
  },
  {
   "property": "C69",
   "status": "proved",
   "theorems": [
    "Verif.geometry_values",
    "Verif.geometry_partials"
   ],
   "note": ""
  },
  {
   "property": "C70",
   "status": "proved",
   "theorems": [
    "Verif.loads_component_partials",
    "Verif.loads_component_stale"
   ],
   "note": "Every declared input; the Jacobian is the one stored by the last successful compute (loads_component_stale)."
  },
  {
   "property": "C71",
   "status": "proved",
   "theorems": [
    "Verif.capTwist_capped",
    "Verif.twist_component_cap",
    "Verif.twist_component_bound"
   ],
   "note": "The interpolation is a parameter; the bound with smoothing assumes it stays below every bound of its data (ShapePreserving)."
  },
  {
   "property": "C72",
   "status": "proved",
   "theorems": [
    "Verif.twist_lift_drag"
   ],
   "note": ""
  },
  {
   "property": "C73",
   "status": "proved",
   "theorems": [
    "Verif.evaluate_component"
   ],
   "note": "The numbers of compute (derivatives off) are those of the differentiated analysis (C83)."
  },
  {
   "property": "C74",
   "status": "partial",
   "theorems": [
    "Verif.tip_speed_partial",
    "Verif.station_speed_partial",
    "Verif.tip_speed_false",
    "Verif.twist_reynolds_partial",
    "Verif.twist_reynolds_false"
   ],
   "note": "Proved with the last station radius in place of the tip radius (tip_speed_partial) and with the speed scaled by the unit factor (twist_reynolds_partial). False as stated: the speed is based on r[-1], not on Rtip (tip_speed_false), and the Reynolds number takes the rotor speed in rpm as if it were rad/s (twist_reynolds_false)."
  },
  {
   "property": "C75",
   "status": "proved",
   "theorems": [
    "Verif.conv_eq_doc"
   ],
   "note": ""
  },
  {
   "property": "C76",
   "status": "partial",
   "theorems": [
    "Verif.cm_rows_kept_partial",
    "Verif.cm_last_row_lost"
   ],
   "note": "Proved except for the last data row. That row is kept if its angle is not a multiple of ten degrees and otherwise replaced by 0 (cm_last_row_lost)."
  },
  {
   "property": "C77",
   "status": "proved",
   "theorems": [
    "Verif.evalUnsteady_zero_lift",
    "Verif.evalUnsteady_zero_lift_unique",
    "Verif.evalUnsteady_no_zero_lift",
    "Verif.evalUnsteady_constant_lift"
   ],
   "note": "For every lift curve that changes sign between the rows; constant lift and lift of one sign are covered too. numpy's search is modelled from numpy's source, which is not part of the repository."
  },
  {
   "property": "C78",
   "status": "partial",
   "theorems": [
    "Verif.evalUnsteady_linear_moment",
    "Verif.evalUnsteady_total_false",
    "Verif.evalUnsteady_total_partial",
    "Verif.evalUnsteady_exists_iff",
    "Verif.evalUnsteady_exists_any",
    "Verif.evalUnsteady_narrow",
    "Verif.evalUnsteady_no_minimum",
    "Verif.evalUnsteady_short_break"
   ],
   "note": "Proved: the exact condition on increasing tables with a known zero-lift angle (evalUnsteady_exists_iff): success if and only if the moment is flat or its curve has the minima and the break point the code looks for; tables whose rows nearest to -30 and 30 degrees coincide are refused. False in general: every table with moment linear in the angle is refused (evalUnsteady_linear_moment, evalUnsteady_total_false). With lift that changes sign several times the zero-lift angle is one of its upward crossings, and the same condition holds for it (evalUnsteady_exists_any)."
  },
  {
   "property": "C79",
   "status": "proved",
   "theorems": [
    "Verif.components_no_tables",
    "Verif.twist_component_total"
   ],
   "note": "Conditions listed in the structure TwistReady; spline fit, interpolation and root finder are parameters."
  },
  {
   "property": "C80",
   "status": "partial",
   "theorems": [
    "Verif.twist_design_angle",
    "Verif.twist_inverse_partial",
    "Verif.twist_root_false"
   ],
   "note": "Proved for axisymmetric inflow, airfoils without Reynolds dependence, stations from the first thin one outwards below the twist limit. False at thick root stations (twist_root_false): their angle of attack is overwritten but not their lift and drag."
  },
  {
   "property": "C81",
   "status": "partial",
   "theorems": [
    "Verif.twist_outputs_false"
   ],
   "note": "False: the four outputs are zero for all inputs, although the moment coefficient of the same call is not (twist_outputs_false)."
  },
  {
   "property": "C82",
   "status": "partial",
   "theorems": [
    "Verif.loads_component_jacobian_partial",
    "Verif.loads_component_resampled_jacobian_partial",
    "Verif.loads_component_jacobian_false"
   ],
   "note": "Proved for blades that end neither at the hub nor at the tip, and for every blade along curves that keep radii, precurve, hub and tip radius. False at a blade beginning at the hub radius, where the constructor moves the first station (loads_component_jacobian_false)."
  },
  {
   "property": "C83",
   "status": "proved",
   "theorems": [
    "Verif.loads_values_flag",
    "Verif.evaluate_values_flag",
    "Verif.evaluate_values_flag_conv"
   ],
   "note": "For every scalar type, floating point included. The converse (a call without derivatives returns the same with them, or ValueError) for distributedAeroLoads and for evaluate."
  },
  {
   "property": "C84",
   "status": "partial",
   "theorems": [
    "Verif.evaluate_component_jacobian_partial",
    "Verif.evaluate_component_coefficient_jacobian_partial",
    "Verif.evaluate_component_density_false",
    "Verif.evaluate_component_total_partial"
   ],
   "note": "Proved from end to end (evaluate_component_total_partial) for blades that end neither at the hub nor at the tip, airfoils without Reynolds dependence and states that do not change between axisymmetric and not; coefficients where the quantity is not zero. False for density, whose declared partials are never assigned (evaluate_component_density_false)."
  },
  {
   "property": "C85",
   "status": "partial",
   "theorems": [
    "Verif.unsteadyparam_cylinder",
    "Verif.unsteadyparam_partial",
    "Verif.unsteadyparam_exists",
    "Verif.unsteadyparam_degrees_false",
    "Verif.unsteadyparam_exists_false"
   ],
   "note": "Proved: line, stall values, stall range, least drag; the parameters exist once the line can be fitted (unsteadyparam_exists). False: the angle of least drag is in radians (unsteadyparam_degrees_false); tables without rows in the linear range raise because all rows are counted (unsteadyparam_exists_false). The stall angle itself is C94."
  },
  {
   "property": "C86",
   "status": "partial",
   "theorems": [
    "Verif.array_roundtrip_partial",
    "Verif.array_roundtrip_false"
   ],
   "note": "False: for scalar components toArray gives a 1x3 array, whose fromArray raises IndexError; for three or more vectors the rows are transposed. Proved: fromArray of one row of toArray reproduces the vector."
  },
  {
   "property": "C87",
   "status": "proved",
   "theorems": [
    "Verif.loads_component_blade",
    "Verif.evaluate_component_blade",
    "Verif.twist_component_blade"
   ],
   "note": ""
  },
  {
   "property": "C88",
   "status": "partial",
   "theorems": [
    "Verif.moment_curve_partial",
    "Verif.moment_join_lost"
   ],
   "note": "False where the data begin or end at a multiple of ten degrees: there the table has a second row with moment 0 and the extrapolated curve tends to 0 instead of the datum. Proved: values at all tabulated angles outside the data, linearity in between, rows of the data, joining formula at the upper end."
  },
  {
   "property": "C89",
   "status": "proved",
   "theorems": [
    "Verif.airfoil_correction3D",
    "Verif.airfoil_extrapolate"
   ],
   "note": ""
  },
  {
   "property": "C90",
   "status": "partial",
   "theorems": [
    "Verif.airfoil_blend_partial",
    "Verif.airfoil_blend_Re_false"
   ],
   "note": "False: outside the range of one airfoil the end polar keeps its own Reynolds number, which is averaged with the other; blending data at 1 with data at 2 gives two polars at 3/2. Proved: one polar per Reynolds number, which polars are blended, their Reynolds number in general and that it is the requested one inside both ranges."
  },
  {
   "property": "C91",
   "status": "proved",
   "theorems": [
    "Verif.twist_velocities_nan",
    "Verif.twist_span_outputs"
   ],
   "note": ""
  },
  {
   "property": "C92",
   "status": "partial",
   "theorems": [
    "Verif.flap_coordinates_partial",
    "Verif.flap_lengths",
    "Verif.flap_stale",
    "Verif.flap_interleaved",
    "Verif.flap_other_process",
    "Verif.flap_leftover_false",
    "Verif.flap_shared_false"
   ],
   "note": "False: when the call raises (XFOIL missing or its file unreadable) the files with the coordinates and the commands stay (flap_leftover_false); without multi_run concurrent calls share their files (flap_shared_false). Everything else is proved."
  },
  {
   "property": "C93",
   "status": "proved",
   "theorems": [
    "Verif.cli_writes",
    "Verif.cli_succeeds",
    "Verif.cli_idle",
    "Verif.cli_source_kept"
   ],
   "note": ""
  },
  {
   "property": "C94",
   "status": "partial",
   "theorems": [
    "Verif.unsteadyparam_stall_partial",
    "Verif.unsteadyparam_stall_first_partial",
    "Verif.unsteadyparam_first_false"
   ],
   "note": "Proved: the stall angle is a crossing of the threshold (or an end of the sampled range), and the first one if the deviation crosses once. False in general: with a normal force that dips and recovers a later crossing is reported (unsteadyparam_first_false)."
  },
  {
   "property": "C95",
   "status": "proved",
   "theorems": [
    "Verif.blend_refused",
    "Verif.extrapolate_refused",
    "Verif.airfoil_refused",
    "Verif.common_grid_refused",
    "Verif.evalUnsteady_refused",
    "Verif.rotor_refused",
    "Verif.file_refused"
   ],
   "note": ""
  },
  {
   "property": "C96",
   "status": "partial",
   "theorems": [
    "Verif.polar_text_partial",
    "Verif.aerodyn_text_partial",
    "Verif.aerodyn_text_false"
   ],
   "note": "Proved: header, count, and every line of every polar with its value, description and field widths. False: the value beside 'Angle of attack for minimum CD (deg)' is in radians (aerodyn_text_false)."
  },
  {
   "property": "C97",
   "status": "partial",
   "theorems": [
    "Verif.masked_station_nan",
    "Verif.noWind_dictionary_nan",
    "Verif.noWind_rotor_nan",
    "Verif.zero_coefficient_nan",
    "Verif.axisymmetric_dCMz_nan",
    "Verif.axisymmetric_CMhub_nan",
    "Verif.parked_dCP_nan",
    "Verif.zero_ct_station_nan",
    "Verif.straight_dCZ_nan",
    "Verif.station_derivatives_finite_partial"
   ],
   "note": "Proved: at a station with wind and nonzero tangential coefficient the derivatives are numbers if loads, airfoil slopes and derivatives of the residual are. False in general: a station where a wind component is zero has zero loads and NaN derivatives, and with it the whole rotor (noWind_dictionary_nan, noWind_rotor_nan); NaN loads are replaced by zero, their derivatives are not (masked_station_nan); zero tangential coefficient (zero_ct_station_nan); coefficients that are zero: CMz without tilt, yaw and shear, CZ of straight blades, CP of parked rotors (zero_coefficient_nan and its instances)."
  },
  {
   "property": "C98",
   "status": "partial",
   "theorems": [
    "Verif.geometry_declarations",
    "Verif.loads_declarations",
    "Verif.input_sizes",
    "Verif.evaluate_declarations",
    "Verif.geometry_undeclared",
    "Verif.loads_precurveTip_partial",
    "Verif.loads_viscosity_partial",
    "Verif.evaluate_viscosity_partial",
    "Verif.loads_precurveTip_false"
   ],
   "note": "Proved for every scalar type: setup succeeds and declares exactly the blocks listed; the assigned blocks are declared, of the right shapes and inside the declared positions; all declared blocks are assigned, except rho and mu in CCBladeEvaluate (evaluate_declarations). mu has no influence for airfoils without Reynolds dependence (rho has one: C84). False for precurveTip in CCBladeLoads, which has no derivative and no exemption in the documentation and changes the loads where it equals the last entry of precurve (loads_precurveTip_false); no influence elsewhere (loads_precurveTip_partial)."
  },
  {
   "property": "C99",
   "status": "partial",
   "theorems": [
    "Verif.rotor_any_units",
    "Verif.geometry_any_units",
    "Verif.loads_component_any_units",
    "Verif.evaluate_component_any_units_partial",
    "Verif.evaluate_component_Mb_false",
    "Verif.twist_component_any_units"
   ],
   "note": "Proved for CCBlade and for all outputs of the components but one. False for Mb of CCBladeEvaluate, which is a moment and announced in N/m (evaluate_component_Mb_false); it is proved to change like a moment. (T of CCBladeTwist is announced in N*m though it is the thrust; it is never assigned and stays zero.) Over the real numbers, without rounding."
  },
  {
   "property": "C100",
   "status": "proved",
   "theorems": [
    "Verif.airfoil_file",
    "Verif.airfoil_file_sound",
    "Verif.airfoil_near_table",
    "Verif.airfoil_near_table_one",
    "Verif.airfoil_file_near",
    "Verif.airfoil_file_exact_false"
   ],
   "note": "The bound by the smoothing parameter assumes what the documentation of RectBivariateSpline says about s (SplineFit.Close); airfoil_file_exact_false shows that nothing better follows from it. Over the real numbers, without rounding."
  },
  {
   "property": "C101",
   "status": "partial",
   "theorems": [
    "Verif.station_betz",
    "Verif.station_betz_no_drag_false",
    "Verif.station_thrust",
    "Verif.loads_betz",
    "Verif.evaluate_betz_partial",
    "Verif.evaluate_thrust_limit",
    "Verif.turbine_betz",
    "Verif.evaluate_betz_false"
   ],
   "note": "False for stations solved beyond 90 degrees with an axial induction factor above one (evaluate_betz_false: reported CP 24.96 without a warning), and, for the bound at a single station, for solutions beyond 90 degrees of a residual with wake rotation but without drag (station_betz_no_drag_false: no limit at all). Proved for all other solutions, including the propeller-brake region. The root finder returns exact roots; real arithmetic."
  },
  {
   "property": "C102",
   "status": "partial",
   "theorems": [
    "Verif.hub_thrust",
    "Verif.hub_torque_error",
    "Verif.hub_torque_partial",
    "Verif.hub_lateral_error",
    "Verif.hub_lateral_opposite",
    "Verif.hub_moments_partial",
    "Verif.hub_moments_coned",
    "Verif.hub_lateral_false",
    "Verif.hub_torque_false",
    "Verif.hub_moments_false"
   ],
   "note": "True of the thrust for all blades, of the torque for blades without sweep, of My and Mz for straight blades without cone and sweep. False otherwise: the tangential force enters Y and Z with the wrong sign (hub_lateral_error, hub_lateral_opposite, hub_lateral_false); torque of a coned swept blade (hub_torque_false) and moments of a coned blade (hub_moments_false). Integrals by the trapezoidal rule along the polygon of stations, as in the code."
  },
  {
   "property": "C103",
   "status": "proved",
   "theorems": [
    "Verif.loads_twist_pitch",
    "Verif.evaluate_twist_pitch",
    "Verif.twist_pitch",
    "Verif.loads_dtheta_dpitch",
    "Verif.evaluate_dpitch_sum"
   ],
   "note": ""
  },
  {
   "property": "C104",
   "status": "proved",
   "theorems": [
    "Verif.loads_resplit",
    "Verif.evaluate_resplit",
    "Verif.tip_loss_blades"
   ],
   "note": ""
  },
  {
   "property": "C105",
   "status": "partial",
   "theorems": [
    "Verif.evaluate_arrays_partial",
    "Verif.evaluate_arrays_short",
    "Verif.evaluate_arrays_long",
    "Verif.evaluate_arrays_derivatives",
    "Verif.evaluate_arrays_one",
    "Verif.evaluate_arrays_false"
   ],
   "note": "True for Omega as long as Uinf and pitch at least as long, dictionaries included; refused when Omega or pitch is shorter, when Omega is longer and Uinf has not exactly one entry, and with derivatives whenever Omega and Uinf differ in length. False without derivatives for one wind speed and several rotational speeds: accepted, one thrust, several powers with the torque at the first (evaluate_arrays_one, evaluate_arrays_false); longer pitch arrays are accepted and ignored."
  },
  {
   "property": "C106",
   "status": "partial",
   "theorems": [
    "Verif.root_moment_error",
    "Verif.root_moment_straight",
    "Verif.root_moment_flat",
    "Verif.root_moment_partial",
    "Verif.root_moment_false"
   ],
   "note": "True for straight blades without cone that begin at the rotor axis (root_moment_partial). False otherwise: the moment is taken with the distance from the rotor axis; exact differences in root_moment_error, root_moment_straight, root_moment_flat; counterexample root_moment_false."
  },
  {
   "property": "C107",
   "status": "partial",
   "theorems": [
    "Verif.loads_wind_turned",
    "Verif.wind_turned_ok",
    "Verif.wind_turned_partial",
    "Verif.opposite_misalignment_partial",
    "Verif.yaw_as_tilt_partial",
    "Verif.misalignment_false"
   ],
   "note": "True station by station (loads_wind_turned), and for the rotor outputs when the turn is a whole number of sectors (wind_turned_partial; opposite_misalignment_partial for even, yaw_as_tilt_partial for multiples of four; wind_turned_ok for success). False for other numbers of sectors: misalignment_false (six sectors, yaw against tilt)."
  },
  {
   "property": "C108",
   "status": "partial",
   "theorems": [
    "Verif.build_typed_float",
    "Verif.solveStation_typed_float",
    "Verif.solveStation_typed_direct",
    "Verif.integer_rotor_iff_partial",
    "Verif.integer_hub_station",
    "Verif.integer_tip_station",
    "Verif.integer_rotor_false",
    "Verif.hub_station_unloaded",
    "Verif.integer_inverse_iff_partial",
    "Verif.integer_inverse_false"
   ],
   "note": "Exact condition proved for the constructor (integer_rotor_iff_partial) and for the inverse analysis (integer_inverse_iff_partial); after the construction the type has no influence on the direct analysis. False: with integer radii a blade under 100 m that begins at the hub keeps its first station at the hub (integer_hub_station), where it carries no load (hub_station_unloaded), one that ends at the tip has its last station moved by one metre (integer_tip_station), and the inverse analysis cuts the twist to whole radians (integer_inverse_false)."
  },
  {
   "property": "C109",
   "status": "partial",
   "theorems": [
    "Verif.loads_iterations",
    "Verif.evaluate_iterations",
    "Verif.loads_dictionary_iterations",
    "Verif.rotor_dictionary_iterations",
    "Verif.iterations_residual_partial",
    "Verif.iterations_derivatives_false"
   ],
   "note": "Proved for airfoils without dependence on the Reynolds number (values, derivatives, exceptions, both methods; the dictionaries are exact for every positive number of passes). For other airfoils false (iterations_derivatives_false): the ValueError is constructed without raise and the derivatives of one pass are reported (iterations_residual_partial)."
  },
  {
   "property": "C110",
   "status": "partial",
   "theorems": [
    "Verif.whole_rotor_partial",
    "Verif.whole_rotor_axisymmetric_partial",
    "Verif.whole_rotor_lateral_false",
    "Verif.whole_rotor_false"
   ],
   "note": "Proved when the number of sectors is a multiple of the number of blades (whole_rotor_partial), and for thrust, torque and power without tilt, yaw and shear (whole_rotor_axisymmetric_partial). False otherwise: whole_rotor_false (three blades and the default eight sectors: thrust), whole_rotor_lateral_false (the single sector chosen by the constructor: lateral moment)."
  },
  {
   "property": "C111",
   "status": "partial",
   "theorems": [
    "Verif.loads_continuous_partial",
    "Verif.rotor_continuous_partial",
    "Verif.thrust_continuous_false"
   ],
   "note": "Proved where the inflow equation of the station (of all stations and sectors) has one solution (loads_continuous_partial, rotor_continuous_partial): solved without a warning, loads and outputs continuous, dictionaries exact, for every root finder that solves continuous functions with a change of sign. False otherwise (thrust_continuous_false): with a continuous lift curve that falls beyond an angle of attack no root finder gives a thrust continuous in the wind speed."
  },
  {
   "property": "C112",
   "status": "proved",
   "theorems": [
    "Verif.attached_sign",
    "Verif.attached_station",
    "Verif.attached_unique",
    "Verif.attached_sole"
   ],
   "note": ""
  },
  {
   "property": "C113",
   "status": "proved",
   "theorems": [
    "Verif.inflow_rises",
    "Verif.station_rises",
    "Verif.evaluate_rises",
    "Verif.stalled_load_falls"
   ],
   "note": ""
  },
  {
   "property": "C114",
   "status": "proved",
   "theorems": [
    "Verif.pitch_angles",
    "Verif.station_feathers",
    "Verif.evaluate_feathers",
    "Verif.pitch_for_thrust",
    "Verif.evaluate_feathers_solvable",
    "Verif.pitch_curve",
    "Verif.station_feathers_swirl"
   ],
   "note": ""
  },
  {
   "property": "C115",
   "status": "proved",
   "theorems": [
    "Verif.tolerance_angle",
    "Verif.tolerance_loads",
    "Verif.tolerance_rotor"
   ],
   "note": ""
  },
  {
   "property": "C116",
   "status": "proved",
   "theorems": [
    "Verif.chord_angles",
    "Verif.station_wider",
    "Verif.evaluate_wider"
   ],
   "note": ""
  },
  {
   "property": "C117",
   "status": "proved",
   "theorems": [
    "Verif.drag_station",
    "Verif.drag_outcome",
    "Verif.drag_rotor"
   ],
   "note": ""
  },
  {
   "property": "C118",
   "status": "proved",
   "theorems": [
    "Verif.station_losses",
    "Verif.evaluate_losses"
   ],
   "note": ""
  },
  {
   "property": "C119",
   "status": "proved",
   "theorems": [
    "Verif.station_mesh_free",
    "Verif.station_along",
    "Verif.evaluate_refine",
    "Verif.evaluate_refine_rate",
    "Verif.attached_along",
    "Verif.evaluate_refine_attached",
    "Verif.evaluate_refine_momentum"
   ],
   "note": ""
  },
  {
   "property": "C120",
   "status": "proved",
   "theorems": [
    "Verif.evaluate_sectors",
    "Verif.evaluate_sectors_rate",
    "Verif.attached_revolution",
    "Verif.evaluate_sectors_attached"
   ],
   "note": ""
  },
  {
   "property": "C121",
   "status": "proved",
   "theorems": [
    "Verif.attached_station_limit",
    "Verif.attached_rotor_limit",
    "Verif.attached_coefficients_limit"
   ],
   "note": ""
  },
  {
   "property": "C122",
   "status": "proved",
   "theorems": [
    "Verif.attached_sign_all",
    "Verif.attached_solution",
    "Verif.attached_solved",
    "Verif.solvable_zero_lift",
    "Verif.attached_operation",
    "Verif.attached_loads",
    "Verif.Solvable.more_wind",
    "Verif.evaluate_rises_solvable",
    "Verif.power_curve",
    "Verif.rated_speed"
   ],
   "note": ""
  },
  {
   "property": "C123",
   "status": "partial",
   "theorems": [
    "Verif.polar_plot",
    "Verif.airfoil_plot_partial",
    "Verif.airfoil_plot_false",
    "Verif.cli_plot_files",
    "Verif.cli_plot_shows"
   ],
   "note": "Airfoil.plot with the default single_figure=True raises AttributeError for every airfoil (airfoil_plot_false): it reads useCM, which no polar has. The other mode, Polar.plot and --plot are proved in full."
  },
  {
   "property": "C124",
   "status": "partial",
   "theorems": [
    "Verif.evaluate_state",
    "Verif.inverse_twist_last",
    "Verif.inverse_twist_partial",
    "Verif.inverse_twist_false"
   ],
   "note": "The state left behind is proved for all inflows (evaluate_state, inverse_twist_last). The twist of the inverse analysis fits every sector without tilt, yaw and shear (inverse_twist_partial); false with yaw (inverse_twist_false): each sector replaces self.theta, and the one of the last sector stays."
  },
  {
   "property": "C125",
   "status": "proved",
   "theorems": [
    "Verif.section_faster",
    "Verif.section_faster_false",
    "Verif.station_faster",
    "Verif.evaluate_faster",
    "Verif.rotor_speed_curve"
   ],
   "note": ""
  },
  {
   "property": "C126",
   "status": "proved",
   "theorems": [
    "Verif.section_blades",
    "Verif.station_blades",
    "Verif.evaluate_blades"
   ],
   "note": ""
  },
  {
   "property": "C127",
   "status": "proved",
   "theorems": [
    "Verif.section_lift",
    "Verif.station_lift",
    "Verif.evaluate_lift"
   ],
   "note": ""
  },
  {
   "property": "C128",
   "status": "proved",
   "theorems": [
    "Verif.section_drag",
    "Verif.station_drag",
    "Verif.evaluate_drag"
   ],
   "note": ""
  },
  {
   "property": "C129",
   "status": "partial",
   "theorems": [
    "Verif.listed_reads_partial",
    "Verif.evaluate_reads_partial",
    "Verif.listed_short_partial",
    "Verif.evaluate_short_partial",
    "Verif.listed_short_index_partial",
    "Verif.listed_longer",
    "Verif.evaluate_longer",
    "Verif.lengths_compared_false"
   ],
   "note": "Lists with an entry for every radius give the result of the blade they describe (listed_reads_partial, evaluate_reads_partial); a shorter list raises, on a turning rotor IndexError (listed_short_partial, evaluate_short_partial, listed_short_index_partial). False for longer lists (lengths_compared_false): the code never compares the lengths, and further entries are ignored (listed_longer, evaluate_longer)."
  }
 ]
}
