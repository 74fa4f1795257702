{"id": "C01", "title": "Frame conversions are mutually inverse", "statement": "For every pair of DirectionVector conversions (inertial/wind, wind/yaw, yaw/hub, hub/azimuth, azimuth/blade, blade/airfoil, airfoil/profile), converting a vector to the other frame and back with the same angle returns the original x, y and z components.", "quantifier": "all vectors, all angles in degrees, all seven pairs, both orders", "why_tests_cant": "tests try a few angles; the claim is about every real angle and vector", "anchors": ["ccblade/csystem.py: DirectionVector.*To*", "ccblade/csystem.py: DirectionVector._rotateAboutZ"]}
{"id": "C02", "title": "Frame conversions are isometries", "statement": "Every rotational conversion preserves the dot product of two vectors and the length of a vector, is linear in the vector, and commutes with the cross product, so lengths, angles and handedness are the same in every frame.", "quantifier": "all pairs of vectors, all angles, the six rotational conversion pairs", "why_tests_cant": "an identity over the reals, not at sample angles", "anchors": ["ccblade/csystem.py: DirectionVector._rotateAboutZ", "ccblade/csystem.py: DirectionVector.cross"]}
{"id": "C03", "title": "Conversions compose by adding angles", "statement": "Applying the same conversion by angle a and then by angle b equals applying it once by a+b; angle 0 is the identity and adding 360 degrees to the angle changes nothing.", "quantifier": "all vectors and all angles, every rotational conversion", "why_tests_cant": "needs trigonometric identities for every angle", "anchors": ["ccblade/csystem.py: DirectionVector._rotateAboutZ"]}
{"id": "C04", "title": "Chained conversions carry exact derivatives", "statement": "After any chain of conversions whose angle names are pairwise different, the dictionaries dx, dy, dz of the result hold the exact partial derivatives of the result's components with respect to the original x, y, z and to every angle (per degree).", "quantifier": "all chains of conversions of any length with distinct angle names, all vectors, all angles", "why_tests_cant": "chains are unbounded and finite differences only bound the error at a point", "anchors": ["ccblade/csystem.py: DirectionVector._rotateAboutZ", "ccblade/csystem.py: dx, dy, dz"]}
{"id": "C05", "title": "cross_deriv gives the Jacobian of cross", "statement": "cross_deriv and cross_deriv_array return the exact partial derivatives of every component of the cross product with respect to every component of both operands, stored under the requested names.", "quantifier": "all pairs of vectors, all component directions", "why_tests_cant": "exactness at every point is a statement about derivatives, not about sampled differences", "anchors": ["ccblade/csystem.py: DirectionVector.cross_deriv", "ccblade/csystem.py: DirectionVector.cross_deriv_array"]}
{"id": "C06", "title": "Vector arithmetic is componentwise and consistent", "statement": "+, -, *, / between vectors or with a scalar act componentwise, the in-place forms give the same components as the binary forms, v - w = v + (-w), and v/s*s = v for s nonzero.", "quantifier": "all vectors and scalars (nonzero where divided by)", "why_tests_cant": "algebraic laws over all operands", "anchors": ["ccblade/csystem.py: DirectionVector.__add__", "ccblade/csystem.py: __sub__, __mul__, __truediv__, __iadd__, ..."]}
{"id": "C07", "title": "Blade geometry agrees with the frame conversions", "statement": "The azimuth-frame coordinates of blade stations computed by the Fortran kernel equal DirectionVector(precurve, presweep, r).bladeToAzimuth(precone), and rotating them back recovers (precurve, presweep, r).", "quantifier": "all stations, all blade shapes, all precone angles", "why_tests_cant": "two independently written formulas must agree everywhere", "anchors": ["ccblade/src/bem.f90: defineCurvature", "ccblade/csystem.py: bladeToAzimuth"]}
{"id": "C08", "title": "Straight blades have a uniform cone angle", "statement": "If precurve is constant along the blade and r is strictly increasing, the local cone angle at every station equals the precone angle (for precone in (-180,180] degrees).", "quantifier": "all strictly increasing r with at least two stations, all precone angles in range", "why_tests_cant": "holds for every station count and spacing; involves atan2 branch cuts", "anchors": ["ccblade/src/bem.f90: defineCurvature"]}
{"id": "C09", "title": "Blade path length is a true arc length", "statement": "The path length s starts at 0, its increments are the Euclidean distances between successive (precurve, presweep, r) points, it is strictly increasing when r is, is at least the radial distance travelled, and does not depend on precone.", "quantifier": "all blades with any number of stations", "why_tests_cant": "induction over the number of stations", "anchors": ["ccblade/src/bem.f90: defineCurvature"]}
{"id": "C10", "title": "Relative inflow equals the documented transformation chain", "statement": "The x and y wind components at each station equal the sum of the sheared wind transformed wind->yaw->hub->azimuth->blade and the rotation velocity -(Omega x position) transformed azimuth->blade, with DirectionVector conversions.", "quantifier": "all geometries, yaw, tilt, azimuth, wind speeds, rotor speeds", "why_tests_cant": "two independent formulations must agree for every input", "anchors": ["ccblade/src/bem.f90: windComponents", "ccblade/csystem.py: DirectionVector"]}
{"id": "C11", "title": "Inflow scales linearly and has the right shear reference", "statement": "Wind components are linear in (Uinf, Omega) jointly; with zero shear exponent they do not depend on hub height; a station at hub height sees exactly Uinf whatever the shear exponent.", "quantifier": "all geometries and operating points", "why_tests_cant": "universally quantified algebraic identity", "anchors": ["ccblade/src/bem.f90: windComponents"]}
{"id": "C12", "title": "Azimuth symmetry of the inflow", "statement": "When tilt, yaw and shear exponent are all zero the wind components at every station are the same at every azimuth; in all cases they are 360-degree periodic in azimuth.", "quantifier": "all blades, all azimuths", "why_tests_cant": "the single-sector shortcut rests on this for every azimuth, not for sampled ones", "anchors": ["ccblade/src/bem.f90: windComponents", "ccblade/ccblade.py: CCBlade.__init__ nSector"]}
{"id": "C13", "title": "Axial induction satisfies its thrust relation", "statement": "For positive inflow angle the returned axial induction factor satisfies the momentum balance k(1-a)=a when k<=2/3 and otherwise Buhl's empirical relation 4Fk(1-a)^2 = 8/9+(4F-40/9)a+(50/9-4F)a^2 (outside the 1e-6 singularity guard).", "quantifier": "all k>-1, all loss factors F in (0,1], all options", "why_tests_cant": "tests compare rotor powers, never the balance equation the solver is meant to enforce", "anchors": ["ccblade/src/bem.f90: inductionFactors"]}
{"id": "C14", "title": "Axial induction is continuous, bounded and monotone", "statement": "As a function of the BEM parameter k the induction factor is continuous and differentiable at the momentum/Buhl switch k=2/3 (value 2/5, slope 9/25), lies strictly below 1 for every k>-1, and is increasing in k on k>-1 outside the guard.", "quantifier": "all k>-1, all F in (0,1]", "why_tests_cant": "continuity and monotonicity are limit statements over a continuum", "anchors": ["ccblade/src/bem.f90: inductionFactors"]}
{"id": "C15", "title": "Prandtl loss factor lies in (0,1]", "statement": "For a station strictly between hub and tip and inflow angle in (0,180) degrees the tip, hub and combined loss factors lie in (0,1], and equal 1 when the corresponding option is off.", "quantifier": "all blade counts, radii and inflow angles in range", "why_tests_cant": "range statement over a continuum, including the singular ends", "anchors": ["ccblade/src/bem.f90: inductionFactors"]}
{"id": "C16", "title": "Zero residual means a consistent velocity triangle", "statement": "For positive inflow angles other than 90 degrees, and for negative ones in the propeller-brake regime (k > 1), away from the singular values of the induction factors, the residual is zero exactly when tan(phi) = Vx(1-a)/(Vy(1+ap)) with the returned a and ap.", "quantifier": "all inputs with defined induction factors", "why_tests_cant": "equivalence over all reals; tests never inspect the residual", "anchors": ["ccblade/src/bem.f90: inductionFactors"]}
{"id": "C17", "title": "Relative wind speed is consistent at a solution", "statement": "At any inflow angle where the residual vanishes, all three formulas for the relative wind speed give the same magnitude, so W sin(phi)=|Vx(1-a)| and W cos(phi)=|Vy(1+ap)|, alpha=phi-theta-pitch and Re=rho W c/mu.", "quantifier": "all solutions with phi in (0,90) degrees", "why_tests_cant": "the guards that switch formula are only reachable at special points", "anchors": ["ccblade/src/bem.f90: relativeWind", "ccblade/src/bem.f90: inductionFactors"]}
{"id": "C18", "title": "BEM options switch off exactly their effect", "statement": "wakerotation=False gives ap=0 and a residual without tangential induction; usecd=False makes the residual and induction factors independent of cd; tiploss=False makes them independent of Rtip; hubloss=False makes them independent of Rhub.", "quantifier": "all inputs, all settings of the other options", "why_tests_cant": "independence is a statement about all values of the ignored input", "anchors": ["ccblade/src/bem.f90: inductionFactors", "ccblade/ccblade.py: CCBlade.__init__ bemoptions"]}
{"id": "C19", "title": "Induction depends only on the inflow ratio", "statement": "Scaling Vx and Vy by the same nonzero factor leaves residual, a and ap unchanged.", "quantifier": "all inputs and all nonzero factors", "why_tests_cant": "similarity law over all scalings", "anchors": ["ccblade/src/bem.f90: inductionFactors"]}
{"id": "C20", "title": "inductionfactors_dv differentiates inductionfactors", "statement": "For every input direction the derivative outputs of inductionfactors_dv are the exact directional derivatives of residual, a and ap, wherever the branch conditions hold strictly and the functions are defined.", "quantifier": "all inputs off the switching surfaces, all directions, all option settings", "why_tests_cant": "unit tests use finite differences at one rotor; exactness is for every input", "anchors": ["ccblade/src/bem.f90: INDUCTIONFACTORS_DV", "ccblade/src/bem.f90: inductionFactors"]}
{"id": "C21", "title": "relativewind_dv differentiates relativewind", "statement": "The derivative outputs of relativewind_dv are the exact directional derivatives of alpha, W and Re wherever they are differentiable.", "quantifier": "all inputs off the switching surfaces, all directions", "why_tests_cant": "exactness at every input and in the rarely reached guard branches", "anchors": ["ccblade/src/bem.f90: RELATIVEWIND_DV"]}
{"id": "C22", "title": "windcomponents_dv differentiates windcomponents", "statement": "The derivative outputs of windcomponents_dv are the exact directional derivatives of Vx and Vy at every station.", "quantifier": "all blades of any station count, all directions, positive local height and non-degenerate segments", "why_tests_cant": "vector-valued for every n", "anchors": ["ccblade/src/bem.f90: WINDCOMPONENTS_DV", "ccblade/src/bem.f90: DEFINECURVATURE_DV"]}
{"id": "C23", "title": "definecurvature_dv/_dv2 differentiate definecurvature", "statement": "The derivative outputs are the exact directional derivatives of the azimuth coordinates, cone angle and path length.", "quantifier": "all blades with n>=2 stations and non-degenerate segments, all directions", "why_tests_cant": "vector-valued for every n; involves atan2", "anchors": ["ccblade/src/bem.f90: DEFINECURVATURE_DV", "ccblade/src/bem.f90: DEFINECURVATURE_DV2"]}
{"id": "C24", "title": "thrusttorque_bv is the adjoint of thrusttorque", "statement": "For every seed (Tb,Yb,Zb,Qb,Mb) and every perturbation of all inputs, the inner product of the returned adjoints with the perturbation equals the seeded derivative of (T,Y,Z,Q,M).", "quantifier": "all blades of any station count, all seeds, all perturbations", "why_tests_cant": "reverse-mode correctness is a duality over all directions", "anchors": ["ccblade/src/bem.f90: THRUSTTORQUE_BV", "ccblade/src/bem.f90: DEFINECURVATURE_BV", "ccblade/src/bem.f90: thrustTorque"]}
{"id": "C25", "title": "Derivative kernels return the primal values", "statement": "The _dv routines return the same function values (residual, a, ap; alpha, W, Re; Vx, Vy) as the routines they differentiate.", "quantifier": "all inputs and options", "why_tests_cant": "two generated code bodies must agree everywhere", "anchors": ["ccblade/src/bem.f90: *_DV"]}
{"id": "C26", "title": "Rotor integration is linear, exact and sign preserving", "statement": "thrusttorque integrates load distributions that vanish at hub and tip with the trapezoidal rule along the arc length: the result equals the integral of the piecewise linear interpolant, is linear in (Np,Tp), zero for zero loads, and nonnegative in T for Np>=0 and |cone|<=90 degrees.", "quantifier": "all blades of any station count, all loads", "why_tests_cant": "for every n and every load distribution", "anchors": ["ccblade/src/bem.f90: thrustTorque"]}
{"id": "C27", "title": "Constructor keeps stations strictly inside hub and tip", "statement": "If r is strictly increasing with at least two stations and Rhub<=r[0], r[-1]<=Rtip, the stored stations are strictly increasing and lie strictly between Rhub and Rtip, interior stations are unchanged, and the end stations change only when they coincide with hub or tip.", "quantifier": "all strictly increasing station lists of any length", "why_tests_cant": "tests construct a few blades; this rules out the loss-factor singularity for all", "anchors": ["ccblade/ccblade.py: CCBlade.__init__"]}
{"id": "C28", "title": "Constructor normalises options", "statement": "Omitting precurve (presweep) is the same as passing zeros with zero tip offset whatever tip offset was given; nSector is 1 exactly when tilt, yaw and shear are all zero and otherwise at least 4 and at least the request; rotorR = Rtip cos(precone) + precurveTip sin(precone).", "quantifier": "all constructor arguments", "why_tests_cant": "case analysis over all argument combinations", "anchors": ["ccblade/ccblade.py: CCBlade.__init__"]}
{"id": "C29", "title": "Tip-station adjustment keeps the station on the blade axis", "statement": "When the constructor moves the tip station inward, the moved (r, precurve, presweep) point lies on the piecewise linear blade axis given by the user, and if no station coincides with the tip nothing is moved.", "quantifier": "all blades", "why_tests_cant": "depends on exact coincidences of inputs that tests do not enumerate", "anchors": ["ccblade/ccblade.py: CCBlade.__init__"]}
{"id": "C30", "title": "Per-station solve always yields an answer", "statement": "For every station and every behaviour of the airfoil data distributedAeroLoads obtains an inflow angle: pi/2 when not rotating, a value from the root finder in the chosen bracket, or 0 with a warning when the root finder rejects the bracket; a sign-change rejection never escapes as an exception.", "quantifier": "all residual functions (including NaN-valued), all root-finder behaviours satisfying its contract", "why_tests_cant": "depends on the residual at arbitrary states and on error paths", "anchors": ["ccblade/ccblade.py: CCBlade.distributedAeroLoads"]}
{"id": "C31", "title": "Bracket selection is sound", "statement": "The bracket handed to the root finder is (eps, pi/2) when the residual changes sign there, else (-pi/4,-eps) when the residual is negative then positive there, else (pi/2, pi-eps); in the first two cases a sign change is present, and a continuous residual then has a root in the bracket.", "quantifier": "all residual functions", "why_tests_cant": "statement about all functions", "anchors": ["ccblade/ccblade.py: CCBlade.distributedAeroLoads"]}
{"id": "C32", "title": "Propeller-brake states are searched with losses enabled", "statement": "With tip or hub losses enabled, operating points whose only solution is in the propeller-brake region (negative inflow angle) are found by the solver.", "quantifier": "all stations strictly between hub and tip", "why_tests_cant": "needs reasoning about NaN through acos outside its domain at every input", "anchors": ["ccblade/src/bem.f90: inductionFactors factortip/factorhub", "ccblade/ccblade.py: distributedAeroLoads bracket"]}
{"id": "C33", "title": "A bracketed solution always exists", "statement": "For finite residuals, whatever the section's lift and drag, one of the three search brackets contains a sign change of the residual, so a solution is guaranteed (theory.rst).", "quantifier": "all sections, all airfoil data", "why_tests_cant": "universally quantified existence claim", "anchors": ["ccblade/ccblade.py: distributedAeroLoads", "ccblade/src/bem.f90: inductionFactors", "docs/theory.rst"]}
{"id": "C34", "title": "Loads at a station are the resolved lift and drag", "statement": "At the solved inflow angle Np = q c (cl cos(phi) + cd sin(phi)) and Tp = q c (cl sin(phi) - cd cos(phi)) with q = rho W^2/2, W the speed of the wind with the reported induction (none at standstill), cl and cd those of the station's airfoil at the reported angle of attack, drag included whatever usecd says; |F|^2 = (q c)^2 (cl^2+cd^2).", "quantifier": "all stations, all options", "why_tests_cant": "identity over all inputs", "anchors": ["ccblade/ccblade.py: CCBlade.__loads"]}
{"id": "C35", "title": "No NaN normal load is returned", "statement": "distributedAeroLoads never returns NaN in Np: a station whose solution is NaN gets Np=Tp=a=ap=alpha=0 and does not affect other stations.", "quantifier": "all states, all airfoil behaviours, any scalar arithmetic", "why_tests_cant": "NaN paths are not exercised by tests", "anchors": ["ccblade/ccblade.py: CCBlade.distributedAeroLoads"]}
{"id": "C36", "title": "A parked rotor in wind still carries load", "statement": "With Omega=0 and nonzero wind the distributed loads are those of the section at inflow angle 90 degrees.", "quantifier": "all parked rotors", "why_tests_cant": "the guard on Vx, Vy is reached only on a measure-zero set", "anchors": ["ccblade/ccblade.py: CCBlade.__loads"]}
{"id": "C37", "title": "Strip theory: stations are independent", "statement": "With precurve absent the loads at a station depend on chord, twist and airfoil of that station only; changing another station's chord, twist or airfoil leaves them unchanged.", "quantifier": "all blades, all modifications of other stations", "why_tests_cant": "noninterference over all modifications", "anchors": ["ccblade/ccblade.py: CCBlade.distributedAeroLoads"]}
{"id": "C38", "title": "Residual derivatives are exact", "statement": "The nine residual derivatives (phi, chord, theta, Vx, Vy, r, Rhub, Rtip, pitch) used for the implicit solve are the exact partial derivatives of the residual including the airfoil's dependence on alpha and Re, for iterRe=1.", "quantifier": "all stations off the switching surfaces, all differentiable airfoils", "why_tests_cant": "chain rule through airfoil and Fortran code at every input", "anchors": ["ccblade/ccblade.py: CCBlade.__residualDerivatives"]}
{"id": "C39", "title": "Load derivatives are exact total derivatives", "statement": "The per-station derivatives of Np and Tp are the total derivatives along any smooth variation of the inputs on which the residual stays zero (implicit differentiation), for airfoils whose coefficients do not depend on Re.", "quantifier": "all smooth variations of all inputs", "why_tests_cant": "implicit-function statement", "anchors": ["ccblade/ccblade.py: CCBlade.__loads", "ccblade/ccblade.py: CCBlade.distributedAeroLoads"]}
{"id": "C40", "title": "Load derivatives account for Reynolds-number dependence", "statement": "The same derivatives are exact for airfoils whose coefficients depend on Re.", "quantifier": "all differentiable airfoil models", "why_tests_cant": "the two Reynolds numbers involved differ at every operating point", "anchors": ["ccblade/ccblade.py: CCBlade.__loads", "ccblade/ccblade.py: CCBlade.__runBEM"]}
{"id": "C41", "title": "Derivative dictionaries are labelled and scaled correctly", "statement": "Every entry of dNp/dTp holds the derivative with respect to the quantity named by its key, in the user's units (per degree for angles), with the documented shape; precurve Jacobians are indexed [load station, curve station].", "quantifier": "all keys, all stations, all blade sizes", "why_tests_cant": "index bookkeeping must hold for every n and every key at once", "anchors": ["ccblade/ccblade.py: CCBlade.distributedAeroLoads zidx/ridx/dictionary"]}
{"id": "C42", "title": "Radial derivatives are diagonal", "statement": "The relative inflow at a station does not depend on the radial position of other stations, so the radial Jacobians are diagonal.", "quantifier": "all blades", "why_tests_cant": "claimed in a comment; depends on the blade shape", "anchors": ["ccblade/ccblade.py: CCBlade.__windComponents", "ccblade/src/bem.f90: defineCurvature"]}
{"id": "C43", "title": "Inverse analysis reproduces the prescribed angle of attack", "statement": "In inverse mode the twist returned for a station makes the reported angle of attack equal the prescribed one, whatever the root found.", "quantifier": "all stations with nonzero inflow, all prescribed alpha, cl, cd", "why_tests_cant": "exact identity through state written and read back", "anchors": ["ccblade/ccblade.py: CCBlade.distributedAeroLoads inverse_analysis"]}
{"id": "C44", "title": "Results do not depend on call history", "statement": "In direct mode distributedAeroLoads and evaluate return the same result after any sequence of earlier calls as on a freshly built object.", "quantifier": "all finite sequences of calls", "why_tests_cant": "histories are unbounded", "anchors": ["ccblade/ccblade.py: CCBlade.distributedAeroLoads self.pitch/self.theta", "ccblade/ccblade.py: CCBlade.evaluate"]}
{"id": "C45", "title": "Operating conditions are independent", "statement": "evaluate on a list of conditions gives, for each condition, the same P, T, Q, Y, Z, My, Mz, Mb as evaluating that condition alone; permuting conditions permutes the results.", "quantifier": "all lists of conditions", "why_tests_cant": "for all list lengths and contents", "anchors": ["ccblade/ccblade.py: CCBlade.evaluate"]}
{"id": "C46", "title": "Power, torque and coefficients are consistent", "statement": "P = Q*Omega*pi/30; CP, CT, CQ, CMb, ... are P/(qAU), T/(qA), Q/(qRA), ...; hence CP = CQ * tip-speed ratio.", "quantifier": "all conditions with nonzero wind", "why_tests_cant": "identity over all inputs", "anchors": ["ccblade/ccblade.py: CCBlade.evaluate"]}
{"id": "C47", "title": "One sector suffices for axisymmetric inflow", "statement": "With zero tilt, yaw and shear, evaluating with one azimuthal sector gives the same rotor outputs as averaging over any number of sectors.", "quantifier": "all rotors, all sector counts", "why_tests_cant": "all sector counts at once; the outputs tests check hide the discrepancy", "anchors": ["ccblade/ccblade.py: CCBlade.__init__ nSector", "ccblade/ccblade.py: CCBlade.evaluate"]}
{"id": "C48", "title": "Rotor outputs are sector averages of rotated blade loads", "statement": "T, Q, Mb are averages over equally spaced azimuths of blade integrals (times B for T, Q); (Y,Z) and (My,Mz) are averages of the blade forces rotated by the azimuth angle, so a rotation of all azimuth-independent blade loads averages to zero over two or more sectors.", "quantifier": "all sector counts, all per-azimuth loads", "why_tests_cant": "for all sector counts; sums of roots of unity", "anchors": ["ccblade/ccblade.py: CCBlade.evaluate"]}
{"id": "C49", "title": "Rotor derivative assembly is exact", "statement": "The derivatives of T, Y, Z, Q and blade moment w.r.t. the twelve scalar and five vector design variables are the chain-rule total derivatives given exact load derivatives.", "quantifier": "all rotors, all design variables", "why_tests_cant": "assembly over all stations and keys", "anchors": ["ccblade/ccblade.py: CCBlade.__thrustTorqueDeriv"]}
{"id": "C50", "title": "Power and coefficient derivatives are exact", "statement": "dP, dCP, dCT, dCQ, dCY, dCZ, dCMy, dCMz, dCMb equal the derivatives of the corresponding outputs given those of T, Q, Y, Z, My, Mz, Mb, whenever the quantities divided by are nonzero.", "quantifier": "all operating points", "why_tests_cant": "quotient-rule identity at every point; the zero cases are never tested", "anchors": ["ccblade/ccblade.py: CCBlade.evaluate"]}
{"id": "C51", "title": "Density and speed scaling", "statement": "With Reynolds-independent airfoil data loads, thrust, torque and power scale linearly with density, and scaling Uinf and Omega together by s scales loads by s^2 and power by s^3, leaving all coefficients unchanged.", "quantifier": "all rotors, all positive factors", "why_tests_cant": "similarity law through the root finder", "anchors": ["ccblade/ccblade.py: CCBlade.distributedAeroLoads", "ccblade/ccblade.py: CCBlade.evaluate"]}
{"id": "C52", "title": "Airfoil tables: single Reynolds number and degenerate input", "statement": "With fewer than two Reynolds numbers the coefficients do not depend on Re and the reported Re-derivatives are zero; fewer than two angles of attack is rejected with ValueError; spline degrees are min(len-1,3).", "quantifier": "all tables", "why_tests_cant": "behaviour for every query point and table size", "anchors": ["ccblade/ccblade.py: CCAirfoil.__init__", "ccblade/ccblade.py: CCAirfoil.evaluate", "ccblade/ccblade.py: CCAirfoil.derivatives"]}
{"id": "C53", "title": "max_eff returns the best efficiency", "statement": "max_eff returns an angle of the search grid at which cl/cd is at least as large as at any other searched angle, together with its coefficients.", "quantifier": "all airfoils with positive drag on the grid", "why_tests_cant": "an optimality claim over all airfoil data", "anchors": ["ccblade/ccblade.py: CCAirfoil.max_eff"]}
{"id": "C54", "title": "awayfromstall keeps the margin", "statement": "awayfromstall returns the angle found as the lift maximum on its search grid, reduced by the requested margin.", "quantifier": "all airfoils, all margins", "why_tests_cant": "optimality over all airfoil data", "anchors": ["ccblade/ccblade.py: CCAirfoil.awayfromstall"]}
{"id": "C55", "title": "Breakpoint search stays in range", "statement": "find_breakpoint (used for unsteady parameters) returns an index inside the searched interval (its lower end if empty), or fails, for every signal; on tables with increasing angles it is the first row of largest positive deviation from the chord. The reported Cn1, Cn2 are normal force coefficients of such rows, alpha1 is the angle of such a row (all zero for a flat moment curve) and alpha2 = -alpha1; Cnalpha is the largest slope of the normal force between the zero-lift row and the row of Cn1.", "quantifier": "all tables and indices", "why_tests_cant": "index arithmetic over all inputs", "anchors": ["ccblade/ccblade.py: CCAirfoil.eval_unsteady"]}
{"id": "C56", "title": "Polar.blend interpolates between polars", "statement": "The blended polar lives on the sorted union of both angle grids restricted to the common range; every coefficient is the weighted average of the two polars there, so for weight in [0,1] it lies between them, weight 0 reproduces the first and weight 1 the second on that range, and swapping polars with weight 1-w gives the same polar.", "quantifier": "all polars with increasing angles, all weights", "why_tests_cant": "all grids and weights", "anchors": ["ccblade/airfoilprep.py: Polar.blend"]}
{"id": "C57", "title": "Airfoil.getPolar clamps and interpolates in Re", "statement": "getPolar returns the first polar below the lowest Re, the last above the highest, the stored polar at a stored Re, and otherwise the blend of the two neighbouring polars with a weight in (0,1).", "quantifier": "all Re, all lists of polars sorted by distinct Re", "why_tests_cant": "all list lengths and Re values", "anchors": ["ccblade/airfoilprep.py: Airfoil.getPolar"]}
{"id": "C58", "title": "Airfoil is independent of the order of its polars", "statement": "Constructing an Airfoil from polars in any order gives polars in ascending Re; for distinct Re every query result is independent of the input order.", "quantifier": "all permutations of all lists", "why_tests_cant": "permutations of unbounded lists", "anchors": ["ccblade/airfoilprep.py: Airfoil.__init__"]}
{"id": "C59", "title": "extrapolate covers -180..180 and keeps the data", "statement": "An extrapolated polar starts at -180 and ends at 180 degrees and contains the original (alpha, cl, cd) rows as a contiguous block; cd is at least cdmin everywhere in the result.", "quantifier": "all polars inside (-90,90) degrees, all parameters", "why_tests_cant": "all table sizes", "anchors": ["ccblade/airfoilprep.py: Polar.extrapolate"]}
{"id": "C60", "title": "Viterna extrapolation is continuous at the data ends", "statement": "The Viterna formulas reproduce the last data point's cl and cd at the highest angle of the data, and the mirrored branches join continuously at +-90 and +-180 degrees.", "quantifier": "all polars with highest angle in (0,90) degrees", "why_tests_cant": "identity over all data", "anchors": ["ccblade/airfoilprep.py: Polar.extrapolate", "ccblade/airfoilprep.py: Polar.__Viterna"]}
{"id": "C61", "title": "Extrapolated angles are strictly increasing", "statement": "The alpha array of an extrapolated polar is strictly increasing, as interpolation requires.", "quantifier": "all accepted polars", "why_tests_cant": "depends on the relation of the two data ends; tests cover one side", "anchors": ["ccblade/airfoilprep.py: Polar.extrapolate alpha4/alpha5"]}
{"id": "C62", "title": "extrapolate rejects what it cannot handle", "statement": "extrapolate raises exactly when cdmin<0 or the data reach beyond +-90 degrees.", "quantifier": "all inputs", "why_tests_cant": "all inputs", "anchors": ["ccblade/airfoilprep.py: Polar.extrapolate"]}
{"id": "C63", "title": "Moment extrapolation never meets an untabulated angle", "statement": "For every accepted polar each angle at which cm must be extrapolated has a defined value: the 'Angle encountered for which there is no CM table value' fallback is never taken.", "quantifier": "all accepted polars", "why_tests_cant": "depends on integer truncation over all data ranges", "anchors": ["ccblade/airfoilprep.py: Polar.extrapolate", "ccblade/airfoilprep.py: Polar.__getCM"]}
{"id": "C64", "title": "3-D rotational correction reverts to 2-D data", "statement": "correction3D keeps the angle grid and the moments, changes cl only through the distance from the fitted potential-flow line, returns the 2-D lift where that distance or the correction factor is zero, and fades quadratically to zero between alpha_max_corr and 90 degrees; drag moves by a fixed multiple of its distance from the drag at zero angle.", "quantifier": "all polars and parameters", "why_tests_cant": "all tables", "anchors": ["ccblade/airfoilprep.py: Polar.correction3D"]}
{"id": "C65", "title": "AeroDyn reader terminates on every file", "statement": "initFromAerodynFile returns or raises on every finite text; a table without EOT marker raises rather than looping.", "quantifier": "all finite files", "why_tests_cant": "all inputs; a hang cannot be tested by finitely many files", "anchors": ["ccblade/airfoilprep.py: Airfoil.initFromAerodynFile"]}
{"id": "C66", "title": "AeroDyn reader recovers well-formed files", "statement": "Reading a well-formed AeroDyn file (header, tables, EOT) gives one polar per table with exactly the tabulated alpha, cl, cd, cm and Re.", "quantifier": "all well-formed files", "why_tests_cant": "all table counts and sizes", "anchors": ["ccblade/airfoilprep.py: Airfoil.initFromAerodynFile"]}
{"id": "C67", "title": "AeroDyn files written can be read back", "statement": "writeToAerodynFile produces a file that initFromAerodynFile reads back to the same polars.", "quantifier": "all airfoils", "why_tests_cant": "round trip for all data", "anchors": ["ccblade/airfoilprep.py: Airfoil.writeToAerodynFile", "ccblade/airfoilprep.py: Airfoil.initFromAerodynFile"]}
{"id": "C68", "title": "interpToCommonAlpha and createDataGrid are consistent", "statement": "interpToCommonAlpha puts every polar on one shared grid (the union of all grids by default), preserving Re and number of polars; createDataGrid returns matrices of shape (len alpha, len Re) whose entries are those of the polars, also for cm.", "quantifier": "all airfoils", "why_tests_cant": "all sizes", "anchors": ["ccblade/airfoilprep.py: Airfoil.interpToCommonAlpha", "ccblade/airfoilprep.py: Airfoil.createDataGrid"]}
{"id": "C69", "title": "Geometry component is exact", "statement": "CCBladeGeometry returns R = Rtip cos(precone)+precurveTip sin(precone), diameter 2R, and exact partials per degree of precone.", "quantifier": "all inputs", "why_tests_cant": "exact derivatives everywhere", "anchors": ["ccblade/ccblade_component.py: CCBladeGeometry"]}
{"id": "C70", "title": "Loads component maps loads and Jacobians consistently", "statement": "CCBladeLoads outputs Px = Np, Py = -Tp, Pz = 0 and its partials are +dNp for Px and -dTp for Py for every input it declares.", "quantifier": "all inputs, all declared pairs", "why_tests_cant": "all pairs at once, including sign conventions", "anchors": ["ccblade/ccblade_component.py: CCBladeLoads.compute", "ccblade/ccblade_component.py: CCBladeLoads.compute_partials"]}
{"id": "C71", "title": "Twist component caps inboard twist", "statement": "In CCBladeTwist (inverse mode) the returned twist never exceeds 20 degrees. Without inner-airfoil smoothing every station inboard of the outermost exceedance gets exactly 20 degrees and the stations outboard of it are unchanged; with smoothing by a shape-preserving interpolation the bound still holds.", "quantifier": "all twist distributions of any length", "why_tests_cant": "all lists", "anchors": ["ccblade/ccblade_component.py: CCBladeTwist.compute"]}
{"id": "C72", "title": "Lift and drag recovered from loads", "statement": "CCBladeTwist's LiftF and DragF equal q*c*cl and q*c*cd of the section: rotating (Np,-Tp) back by theta+pitch+alpha recovers lift and drag.", "quantifier": "all stations", "why_tests_cant": "trigonometric identity for all inputs", "anchors": ["ccblade/ccblade_component.py: CCBladeTwist.compute"]}
{"id": "C73", "title": "Evaluate component outputs and Jacobian agree", "statement": "CCBladeEvaluate's outputs are power, blade root moment, the force vector (T,Y,Z), the moment vector (Q,My,Mz) and their coefficients, for every call whose analysis returns; its Jacobian has, for every output row and each of the seventeen inputs the analysis differentiates, exactly the entry of that quantity's derivative dictionary under the key of that input, and no other non-zero entries.", "quantifier": "all inputs, all output rows, all inputs of the Jacobian", "why_tests_cant": "all pairs; undeclared-by-omission entries are silent zeros", "anchors": ["ccblade/ccblade_component.py: CCBladeEvaluate.compute", "ccblade/ccblade_component.py: CCBladeEvaluate.compute_partials"]}
{"id": "C74", "title": "Tip-speed ratio convention in the twist component", "statement": "The rotor speed used by CCBladeTwist corresponds to the requested tip-speed ratio at the blade tip radius and the Reynolds number passed to the airfoil is rho*V*c/mu with V the local speed.", "quantifier": "all inputs", "why_tests_cant": "unit conventions hold or fail for all inputs", "anchors": ["ccblade/ccblade_component.py: CCBladeTwist.compute"]}
{"id": "C75", "title": "Conversions follow the documented axes", "statement": "Every frame conversion of a DirectionVector is the rotation documented in docs/csystem.rst: the wind and yaw frames are turned about +z, the hub frame about +y, the azimuth frame about +x, the blade frame about -y and the airfoil frame about -z, by the given angle in degrees; conversions towards the tower base undo the turn.", "quantifier": "every conversion, every vector, every angle", "why_tests_cant": "A sign or axis error is consistent with all round trip tests, and the tests never compare a conversion with an independent rotation formula over all angles.", "anchors": ["ccblade/csystem.py:DirectionVector", "docs/csystem.rst"]}
{"id": "C76", "title": "extrapolate keeps the moment data", "statement": "The data rows of an extrapolated polar carry the original moment coefficients.", "quantifier": "for all well-formed polars, all accepted arguments, all numbers of points", "why_tests_cant": "Whether a row survives depends on how its angle relates to the ten-degree moment grid; a test with data ending off the grid passes although every table ending at a multiple of ten degrees is affected.", "anchors": ["ccblade/airfoilprep.py:Polar.extrapolate ll.301-325"]}
{"id": "C77", "title": "alpha0 is the zero-lift angle", "statement": "If the lift is not positive at the row nearest to -30 degrees and not negative at the last row before the one nearest to 30 degrees, eval_unsteady reports as alpha0 an angle in between where the piecewise linear lift curve passes through zero from below (the only one if the lift changes sign once) and as Cd0, Cm0 the drag and moment interpolated at that angle; without such a change of sign it reports the values of an end row, and for constant lift zero angle and moment.", "quantifier": "all tables, lift in any order", "why_tests_cant": "all table sizes and data", "anchors": ["ccblade/ccblade.py: CCAirfoil.eval_unsteady"]}
{"id": "C78", "title": "Unsteady parameters exist for every table", "statement": "eval_unsteady computes its parameters for every table of at least two rows with increasing angles.", "quantifier": "all tables", "why_tests_cant": "success on all inputs", "anchors": ["ccblade/ccblade.py: CCAirfoil.eval_unsteady"]}
{"id": "C79", "title": "The twist component returns for every rotating rotor", "statement": "CCBladeTwist.compute returns (raises nothing) for every blade with at least one station, tables of at least two angles, a non-zero rotor speed, no optimisation flag in inverse mode and, in inverse mode, at least one station thinner than 95 percent and requested angles of attack away from the sentinel pi, provided the spline fit and the shape-preserving interpolation accept their data and the root finder fails only with ValueError.", "quantifier": "all blades, tables, operating points and modes meeting these conditions", "why_tests_cant": "absence of exceptions for all inputs, station counts and modes", "anchors": ["ccblade/ccblade_component.py: CCBladeTwist.compute"]}
{"id": "C80", "title": "Inverse twist is self-consistent", "statement": "In inverse mode the returned twist makes the requested angle of attack a solution of the direct analysis: at the inflow angle found by the inverse analysis the angle of attack is the requested one and the direct residual equals the inverse residual.", "quantifier": "all blades, all stations", "why_tests_cant": "relates two different analyses for all inputs; tests compare stored numbers", "anchors": ["ccblade/ccblade_component.py: CCBladeTwist.compute ll.575-640", "ccblade/ccblade.py: CCBlade.__runBEM_inverse"]}
{"id": "C81", "title": "Declared outputs of the twist component are computed", "statement": "The outputs P, T, Q and M that CCBladeTwist declares are the power, thrust, torque and blade root moment of the analysis it runs.", "quantifier": "all inputs", "why_tests_cant": "an output that is never assigned keeps its default silently", "anchors": ["ccblade/ccblade_component.py: CCBladeTwist.setup", "ccblade/ccblade_component.py: CCBladeTwist.compute"]}
{"id": "C82", "title": "Component Jacobian is the derivative of its outputs", "statement": "The Jacobian CCBladeLoads returns after compute is the derivative of the component's load outputs with respect to its inputs, along every differentiable curve of the declared inputs, including through the construction of the analysis object from the inputs.", "quantifier": "all blades, all smooth curves of inputs", "why_tests_cant": "a derivative along every curve through every state; a finite-difference test samples single points, typically with the same step that hides a jump", "anchors": ["ccblade/ccblade_component.py: CCBladeLoads.compute", "ccblade/ccblade_component.py: CCBladeLoads.compute_partials", "ccblade/ccblade.py: CCBlade.__init__ ll.585-614"]}
{"id": "C83", "title": "Requesting derivatives does not change the values", "statement": "A call that returns on an object constructed with derivatives=True returns on the same object constructed with derivatives=False, with the same inflow angles, loads, rotor forces, moments, power and coefficients; a call that returns without derivatives either returns the same values with derivatives or raises ValueError.", "quantifier": "all objects, root finders, airfoils, operating points, over any scalar arithmetic", "why_tests_cant": "equality of two program variants for all inputs, exactly and not up to tolerance", "anchors": ["ccblade/ccblade.py: CCBlade.distributedAeroLoads", "ccblade/ccblade.py: CCBlade.evaluate", "ccblade/ccblade.py: CCBlade.__loads"]}
{"id": "C84", "title": "Evaluate component Jacobian is the derivative of its outputs", "statement": "The Jacobian CCBladeEvaluate returns is the derivative of its outputs with respect to every continuous input other than the airfoil tables (it declares partials of all outputs with respect to all of them), along every differentiable curve of the inputs, including through the construction of the analysis object.", "quantifier": "all blades, all smooth curves of inputs, all outputs", "why_tests_cant": "a derivative along every curve; partials that are declared but never assigned are silent zeros", "anchors": ["ccblade/ccblade_component.py: CCBladeEvaluate.compute", "ccblade/ccblade_component.py: CCBladeEvaluate.compute_partials", "ccblade/ccblade_component.py: CCBladeEvaluate.setup"]}
{"id": "C85", "title": "AeroDyn stall parameters", "statement": "Polar.unsteadyparam returns, for a table with at least ten rows and ten different lift values, the slope and zero of the normal-force line fitted between the given angles, the normal forces at stall on that line, a stall angle between 0 and 39 degrees, and the least drag with its angle in degrees; for other tables (cylinders) it returns zeros.", "quantifier": "all tables, all linear ranges, all outcomes of np.polyfit", "why_tests_cant": "the units of one of eight unlabelled numbers; a statement about every table including those without rows in the linear range", "anchors": ["ccblade/airfoilprep.py: Polar.unsteadyparam"]}
{"id": "C86", "title": "fromArray and toArray are inverse", "statement": "DirectionVector.fromArray(v.toArray()) reproduces v, for scalar and for array components.", "quantifier": "all vectors, all numbers of entries", "why_tests_cant": "Depends on the kind and the number of entries: with two or three entries the call returns something, a test with a fixed shape sees one case only.", "anchors": ["ccblade/csystem.py: DirectionVector.fromArray, DirectionVector.toArray"]}
{"id": "C87", "title": "The components analyse the blade they are given", "statement": "CCBladeLoads, CCBladeEvaluate and CCBladeTwist analyse exactly the blade of their inputs: radii, chord, twist in radians, hub and tip, angles, sectors and options are those given, every station has the airfoil fitted to its own rows of the tables (the first table, the middle one for the twist), and the outputs are those of this analysis at the given operating point.", "quantifier": "all blades, all tables, all operating points, all spline fits and root finders", "why_tests_cant": "some thirty inputs are handed over by position; a swapped pair with equal sample values is invisible, and so is a wrong table when all tables are equal", "anchors": ["ccblade/ccblade_component.py: CCBladeLoads.compute", "ccblade/ccblade_component.py: CCBladeEvaluate.compute", "ccblade/ccblade_component.py: CCBladeTwist.compute"]}
{"id": "C88", "title": "Extrapolated pitching moments", "statement": "Polar.extrapolate continues the moment curve to ±180 degrees: at each tabulated multiple of ten degrees outside the data the moment is that of the normal force about a point moving with the angle (chosen so that the curve joins the last moment of the data), mirrored for negative angles, with the prescribed values near ±180 degrees; between the tabulated angles it is linear and it joins the first and last moments of the data continuously.", "quantifier": "all polars with some nonzero moment, all aspect ratios, drag limits and resolutions", "why_tests_cant": "the table is built from three pieces whose ends coincide only for particular data; a sample polar that ends between multiples of ten never shows the overlap", "anchors": ["ccblade/airfoilprep.py: Polar.extrapolate", "ccblade/airfoilprep.py: Polar.__getCM", "ccblade/airfoilprep.py: Polar.__CMCoeff"]}
{"id": "C89", "title": "Airfoil corrections act polar by polar", "statement": "Airfoil.correction3D and Airfoil.extrapolate return an airfoil whose polars are, in the same order and at the same Reynolds numbers, the corrected or extrapolated polars, every one with the arguments given; if a polar raises, the exception of the first such polar is raised and nothing is returned.", "quantifier": "all airfoils, all arguments", "why_tests_cant": "all numbers of polars; positional arguments handed on are invisible when a test uses the defaults", "anchors": ["ccblade/airfoilprep.py: Airfoil.correction3D", "ccblade/airfoilprep.py: Airfoil.extrapolate"]}
{"id": "C90", "title": "Airfoil.blend blends at each Reynolds number", "statement": "Airfoil.blend returns one polar for each Reynolds number of either airfoil, at that Reynolds number, being the blend with the given weight of the polars of the two airfoils there.", "quantifier": "all airfoils whose polars share an angle, all weights in [0,1]", "why_tests_cant": "depends on how the two ranges of Reynolds numbers overlap", "anchors": ["ccblade/airfoilprep.py: Airfoil.blend"]}
{"id": "C91", "title": "Spanwise outputs of the twist component", "statement": "CCBladeTwist returns, station by station, the induction factors of its analysis at azimuth zero, the forces in the blade frame turned into the airfoil frame by the returned twist, vanishing third components, and local velocities without NaN, which are those of the analysis at the last azimuth angle; lift and drag (coefficients and forces) are resampled linearly over the normalised span at the requested points.", "quantifier": "all blades with increasing radii, all operating points and modes", "why_tests_cant": "a dozen arrays assigned by name; a mixed-up pair or a wrong azimuth is invisible in axisymmetric inflow", "anchors": ["ccblade/ccblade_component.py: CCBladeTwist.compute"]}
{"id": "C92", "title": "Flap coordinates come from XFOIL and leave no files behind", "statement": "af_flap_coords gives XFOIL the coordinates of the airfoil and the requested hinge and deflection, stores the first two columns of what XFOIL saved and the deflection, changes nothing else of the airfoil, and removes its temporary files; stale files of earlier calls and concurrent calls of other processes (multi_run) have no influence; when it raises the airfoil is unchanged.", "quantifier": "all airfoils, requests, process numbers, file systems and behaviours of XFOIL, and all interleavings with processes that use other names", "why_tests_cant": "XFOIL, the file system and the scheduling of other processes are outside the control of a test", "anchors": ["ccblade/ccblade.py: CCAirfoil.af_flap_coords"]}
{"id": "C93", "title": "airfoilprep command line writes exactly the requested airfoil", "statement": "A run of airfoilprep.py with --stall3D, --extrap or --blend (in this order of precedence) writes one file, named by --out or else derived from the source name so that it differs from it; on success its text is that of the source airfoil after the operation (and --common); on failure before writing no file changes; without an action nothing happens.", "quantifier": "all argument combinations, file names and file systems", "why_tests_cant": "all names, files and options", "anchors": ["ccblade/airfoilprep.py: __main__"]}
{"id": "C94", "title": "The stall angle is where the normal force leaves the line", "statement": "The stall angle of Polar.unsteadyparam is the first angle between 0 and 39 degrees at which the normal force of the table, sampled at whole degrees, falls 0.05 below the fitted line (39 if it never does); the lower stall force is the value of the line at the corresponding point going down from 5 degrees.", "quantifier": "all tables that cover the range, all outcomes of np.polyfit", "why_tests_cant": "np.interp is applied to samples that need not be increasing; which crossing is returned depends on the search", "anchors": ["ccblade/airfoilprep.py: Polar.unsteadyparam"]}
{"id": "C95", "title": "Unusable tables and blades are refused with a definite exception", "statement": "Blending with, or regridding, a polar that has no rows or whose columns differ in length from its angles raises ValueError; extrapolating a polar without rows raises ValueError; an airfoil without polars, a file that is empty or announces no tables, and a rotor without stations raise IndexError; a file row with fewer than four numbers and unsteady parameters of fewer than two rows raise ValueError. No such input yields a result.", "quantifier": "all tables, files, blades and all scalar types", "why_tests_cant": "all malformed inputs, whatever the remaining data", "anchors": ["ccblade/airfoilprep.py: Polar.blend, Polar.extrapolate, Airfoil.__init__, Airfoil.interpToCommonAlpha, Airfoil.initFromAerodynFile", "ccblade/ccblade.py: CCAirfoil.eval_unsteady, CCBlade.__init__"]}
{"id": "C96", "title": "An AeroDyn file states each value beside its description", "statement": "writeToAerodynFile writes the fixed header, the number of tables and, for each polar on the common angles in order, the Reynolds number in millions, the eight parameters of unsteadyparam each beside its own description and in the unit named there, the rows angle, lift, drag, moment, and EOT.", "quantifier": "all airfoils, outcomes of np.polyfit and number formats", "why_tests_cant": "all airfoils", "anchors": ["ccblade/airfoilprep.py: Airfoil.writeToAerodynFile, Polar.unsteadyparam"]}
{"id": "C97", "title": "Derivatives are numbers wherever the loads are", "statement": "With derivatives switched on, whenever distributedAeroLoads and evaluate report finite loads, forces and coefficients, every derivative they return beside them is a number too: no entry is NaN.", "quantifier": "all rotors, operating conditions, airfoils and root finders; NaN and infinities included", "why_tests_cant": "all rotors; the tests compare derivatives at one ordinary operating point, where every quantity divided by happens to be nonzero", "anchors": ["ccblade/ccblade.py: CCBlade.__loads, CCBlade.distributedAeroLoads, CCBlade.evaluate, CCBladeEvaluate.compute"]}
{"id": "C98", "title": "Declared derivatives are those computed, and what is not declared has no influence", "statement": "The setup methods of CCBladeGeometry, CCBladeLoads and CCBladeEvaluate succeed for every number of stations and size of tables; compute_partials then assigns only blocks that were declared, in the shapes of their variables and only at the declared positions, and assigns every declared block; an output does not depend on an input for which no derivative is declared or assigned, other than the airfoil tables and the density named in the documentation.", "quantifier": "all numbers of stations and tables, all inputs, all arithmetics", "why_tests_cant": "all inputs; check_partials compares only declared blocks at one point, and inputs without declared derivatives are not looked at", "anchors": ["ccblade/ccblade_component.py: CCBladeGeometry.setup, CCBladeLoads.setup, CCBladeEvaluate.setup, compute_partials"]}
{"id": "C99", "title": "The results do not depend on the system of units", "statement": "A rotor described in other units of length, time and mass gives the same exceptions or the same physical results: CCBlade returns the same angles, induction factors, coefficients and Reynolds numbers, and loads, forces, moments, powers and speeds that change with the units documented for them. For CCBladeGeometry, CCBladeLoads, CCBladeTwist and CCBladeEvaluate, converting the inputs according to the units announced in setup converts every output according to the unit announced for it.", "quantifier": "all positive ratios of the units, all rotors, airfoils, operating conditions, options, root finders and interpolants", "why_tests_cant": "all inputs and all units; the tests use SI units only, in which a wrong announced unit or a dimensional constant in the code makes no difference", "anchors": ["ccblade/ccblade.py: CCBlade.__init__, CCBlade.distributedAeroLoads, CCBlade.evaluate", "ccblade/ccblade_component.py: setup and compute of CCBladeGeometry, CCBladeLoads, CCBladeTwist, CCBladeEvaluate"]}
{"id": "C100", "title": "An airfoil read from a file is the airfoil of the file", "statement": "CCAirfoil.initFromAerodynFile of a well-formed file constructs the airfoil from exactly the data of the file: all angles of all tables in increasing order, the Reynolds numbers in ascending order, and per coefficient the values of the table with that Reynolds number, interpolated linearly at the angles of the other tables. At every row of every table evaluate returns the lift, drag and moment of that row up to the square root of 0.1, 0.001 and 0.0001 (of half of it, and at every Reynolds number, for a file with one table), provided the spline routine respects its smoothing parameter. A file with an empty table or a single angle yields no airfoil.", "quantifier": "all files, number formats, tables, spline routines respecting their parameter s", "why_tests_cant": "all files and all spline routines; a swapped coefficient or a wrong column shows only for particular data", "anchors": ["ccblade/ccblade.py: CCAirfoil.initFromAerodynFile, CCAirfoil.__init__, CCAirfoil.evaluate", "ccblade/airfoilprep.py: Airfoil.initFromAerodynFile, Airfoil.createDataGrid"]}
{"id": "C101", "title": "The power stays below the Betz limit", "statement": "A rotor with straight blades in axial wind, airfoils without negative drag, all stations solved without the convergence warning: the power that the blades extract at each station is at most 16/27 of the power of the wind through its annulus, and the reported CP is below 16/27 (times the cosine of the precone angle and the fraction of the disc outside the hub), whatever the airfoils, the twist, the solidity and the loss options; with drag in the residual and positive inflow angles the reported CT is below 2.", "quantifier": "all rotors, airfoils with nonnegative drag, operating conditions, loss options", "why_tests_cant": "the bound must hold for every airfoil and every state (momentum, Buhl, guard, propeller brake, beyond 90 degrees); tests sample a few rotors near their design point", "anchors": ["ccblade/ccblade.py: CCBlade.evaluate, CCBlade.distributedAeroLoads", "ccblade/src/bem.f90: inductionFactors, relativeWind, thrustTorque"]}
{"id": "C102", "title": "Forces and moments at the hub are the resultant of the distributed loads", "statement": "The hub force (T, Y, Z) and hub moment (Q, My, Mz) reported for a rotor, announced as aerodynamic forces and moments at the hub centre in the hub coordinate system, are the resultant force and the resultant moment about the hub centre of the distributed loads reported for the azimuth sectors: normal force per length along the x-axis of the section, tangential force in the direction of rotation (the negative y-axis of the blade), integrated along the blade axis and turned from blade to azimuth to hub coordinates as documented.", "quantifier": "all rotors, blade shapes, operating conditions, numbers of sectors", "why_tests_cant": "regression tests compare the outputs with stored outputs of the same code; the agreement with the documented frames concerns every blade shape and every distribution of loads over the azimuth", "anchors": ["ccblade/ccblade.py: CCBlade.evaluate", "ccblade/src/bem.f90: thrustTorque", "ccblade/ccblade_component.py: CCBladeEvaluate", "docs/csystem.rst"]}
{"id": "C103", "title": "Only the sum of twist and pitch matters", "statement": "A blade whose twist is smaller by some angle at every station, operated at a pitch larger by the same angle, gives the same distributed loads and rotor outputs (the reported inflow and attack angles included); the derivatives of the outputs with respect to pitch are the sums of the derivatives with respect to the twist of the stations.", "quantifier": "all rotors, twist distributions, angles, operating conditions, root finders", "why_tests_cant": "tests compare one blade at one pitch with stored numbers; the identity concerns all pairs of twist and pitch and ties two blocks of the Jacobian together", "anchors": ["ccblade/ccblade.py: CCBlade.__init__, CCBlade.__runBEM, CCBlade.distributedAeroLoads, CCBlade.evaluate", "ccblade/src/bem.f90: relativeWind"]}
{"id": "C104", "title": "Without tip and hub losses only the solidity matters", "statement": "With tip and hub losses off, a rotor with another number of blades and chords scaled so that number times chord is the same (at equal Reynolds numbers) has the same inflow angles, induction factors, angles of attack and coefficients at every station and the same thrust, side forces, torque, moments and power; the loads per length and the root moment of one blade scale with the chord. With losses on the tip factor distinguishes any two numbers of blades.", "quantifier": "all rotors evaluated without derivatives, numbers of blades, airfoils, operating conditions, root finders", "why_tests_cant": "the number of blades enters the solidity, the loss factors and the sums over blades; tests use one number of blades", "anchors": ["ccblade/ccblade.py: CCBlade.__runBEM, CCBlade.__loads, CCBlade.distributedAeroLoads, CCBlade.evaluate", "ccblade/src/bem.f90: inductionFactors, relativeWind, thrustTorque"]}
{"id": "C105", "title": "One operating condition per entry of the arrays", "statement": "evaluate(Uinf, Omega, pitch) reports arrays with one entry per operating condition; entry i of each (power and power coefficient included) is that of the condition (Uinf[i], Omega[i], pitch[i]) evaluated alone, and arrays that do not describe the same number of conditions are refused with an exception.", "quantifier": "all rotors, arrays of any lengths, root finders", "why_tests_cant": "tests pass arrays of equal lengths; which combinations of lengths are refused, accepted or silently broadcast concerns all lengths", "anchors": ["ccblade/ccblade.py: CCBlade.evaluate"]}
{"id": "C106", "title": "The blade root flap moment is the moment about the blade root", "statement": "The output Mb, announced as blade root flap moment, is the flapwise component of the resultant moment of the distributed loads of one blade about its root (the hub end of the blade), averaged over the azimuth sectors.", "quantifier": "all rotors, blade shapes, operating conditions, numbers of sectors", "why_tests_cant": "tests compare Mb with stored values of the same code; the point of reference and the lever arms concern every hub radius and blade shape", "anchors": ["ccblade/ccblade.py: CCBlade.evaluate", "ccblade/src/bem.f90: thrustTorque", "ccblade/ccblade_component.py: CCBladeEvaluate"]}
{"id": "C107", "title": "Without shear only the angle between wind and shaft matters", "statement": "In a wind without shear, two rotors that differ only in tilt and yaw and see the wind under the same angle to the shaft have the same thrust, torque, power and blade root moment, and lateral forces and moments turned by the angle between the two wind directions as seen from the shaft; in particular opposite tilt and yaw, or yaw in place of tilt, make no difference to the power.", "quantifier": "all rotors, tilt and yaw angles, operating conditions, numbers of sectors", "why_tests_cant": "a symmetry relating pairs of inputs over a continuum of angles; the tests evaluate single configurations", "anchors": ["ccblade/ccblade.py: CCBlade.evaluate", "ccblade/ccblade.py: CCBlade.__init__", "ccblade/src/bem.f90: windComponents"]}
{"id": "C108", "title": "Whole numbers mean the same as floating-point numbers", "statement": "A rotor whose radii, precurve or presweep are given as arrays of whole numbers (lists of ints, np.arange, integer arrays; the arguments are array_like) is the same rotor, with the same results, as the one given by the equal floating-point arrays: the stations stay strictly inside hub and tip, and the inverse analysis meets the prescribed angles of attack.", "quantifier": "all blades, element types of the three arrays, operating conditions, root finders", "why_tests_cant": "numpy cuts a number silently when it is assigned to an entry of an integer array; tests pass arrays of doubles, and whether anything is cut depends on every coincidence of an end station with hub or tip", "anchors": ["ccblade/ccblade.py: CCBlade.__init__, CCBlade.distributedAeroLoads (np.zeros_like(self.r))"]}
{"id": "C109", "title": "Derivatives with more than one Reynolds-number pass", "statement": "The number of passes iterRe (at least one) has no influence on loads, derivatives, exceptions and rotor outputs when the airfoils do not depend on the Reynolds number. Since analytic derivatives exist for one pass only (documentation of iterRe), a request for derivatives with iterRe other than 1 is refused with the ValueError prepared for it, or the derivatives reported are those of the loads returned.", "quantifier": "all rotors, airfoils, numbers of passes, operating conditions, root finders", "why_tests_cant": "the gradient tests use iterRe=1 only; what happens for other numbers of passes concerns all airfoils and all numbers", "anchors": ["ccblade/ccblade.py: CCBlade.__runBEM, CCBlade.__residualDerivatives, CCBlade.__loads, CCBlade.distributedAeroLoads, CCBlade.evaluate"]}
{"id": "C110", "title": "The rotor outputs are those of all the blades over a revolution", "statement": "Thrust, torque, power, side forces and hub moments returned by evaluate are those of the whole rotor: when the B blades are spaced evenly around the circle and each has the distributed loads reported at its own azimuth, the sum over the blades, averaged over the positions of the rotor, is the value returned.", "quantifier": "all rotors, numbers of blades and sectors, tilt, yaw and shear, operating conditions, root finders", "why_tests_cant": "evaluate follows one blade and multiplies by B; agreement with the sum over blades depends on the arithmetic relation of B and nSector for all load distributions; the tests have no loads of the other blades", "anchors": ["ccblade/ccblade.py: CCBlade.evaluate, CCBlade.__init__, CCBlade.distributedAeroLoads"]}
{"id": "C111", "title": "Loads and rotor outputs vary continuously", "statement": "A small change of the design (chord, twist, radii, cone, ...) or of the operating conditions (wind, rotor speed, pitch) makes a small change of the distributed loads and of thrust, torque and power, and the derivative dictionaries give the size of this change, without any assumption about the inflow angles found for the neighbouring inputs.", "quantifier": "all rotors, airfoils with continuous coefficients, curves of designs and operating conditions, root finders that solve continuous functions with a change of sign", "why_tests_cant": "which root the bracketing method picks for a neighbouring input is a limit statement over all inputs and all root finders; tests compare finitely many inputs, and finite differences at smooth points do not see jumps between roots", "anchors": ["ccblade/ccblade.py: CCBlade.distributedAeroLoads, CCBlade.evaluate, CCBlade.__errorFunction", "ccblade/src/bem.f90: inductionFactors"]}
{"id": "C112", "title": "One solution in attached flow", "statement": "At a station whose lift does not fall and whose drag does not fall with the angle of attack over the inflow angles from 0 to 90 degrees (with wake rotation: drag that grows no faster than F sin(phi), e.g. constant), the inflow equation has at most one solution with lift in this range, whatever the tip and hub losses, wake rotation and usecd: the residual is negative below it and positive above it, the search takes the interval up to 90 degrees, and the loads do not depend on how the root is searched.", "quantifier": "all sections, airfoils, blade counts, loss and drag options, positive wind components, exact root finders; outside the 1e-6 guard of Buhl's formula and k = -1", "why_tests_cant": "uniqueness of a root over a continuum and for all airfoils; a test sees only the root one method returns", "anchors": ["ccblade/src/bem.f90: inductionFactors", "ccblade/ccblade.py: CCBlade.distributedAeroLoads, CCBlade.__errorFunction", "docs/theory.rst"]}
{"id": "C113", "title": "More wind, more load in attached flow", "statement": "For airfoils that ignore the Reynolds number, with lift that does not fall, drag that does not fall and a drag-to-lift ratio that does not rise with the angle of attack, raising the wind speed at fixed rotor speed and pitch raises the inflow angle, the angle of attack and the normal force at every station with lift, and the tangential force where it drove the rotor. For a straight rotor in axial wind evaluate then reports a larger thrust and blade root moment, and larger torque and power if every station drove the rotor. The inflow angle of a section depends on the ratio of the inflow components in the same way, so it also rises when the rotor slows down.", "quantifier": "all rotors, airfoils of this kind, loss, drag and wake options, pairs of positive wind speeds, numbers of sectors, exact root finders; stations solved without warning and outside the 1e-6 guard of Buhl's formula", "why_tests_cant": "monotonicity over a continuum of wind speeds and all designs; a power curve sampled at some speeds cannot exclude a dip between them", "anchors": ["ccblade/src/bem.f90: inductionFactors, relativeWind", "ccblade/ccblade.py: CCBlade.distributedAeroLoads, CCBlade.evaluate"]}
{"id": "C114", "title": "Pitching towards feather unloads the blade in attached flow", "statement": "With one pass over the Reynolds number (iterRe = 1, the default) or airfoils that ignore it, and with lift that rises with the angle of attack and, if the residual uses drag, constant drag over the angles in question, raising the pitch at fixed wind and rotor speed raises the inflow angle of every station without negative lift, by less than the pitch: the angle of attack falls. If drag is used and, with wake rotation, the station does not brake the rotor at the larger pitch, the normal force falls too, and for a straight rotor in axial wind evaluate reports a smaller thrust and blade root moment; between two pitch angles at and between which this holds and the data of the rotor guarantee a solution (C122), both are continuous, strictly decreasing functions of the pitch, and every thrust in between is reported at exactly one pitch.", "quantifier": "all rotors, airfoils of this kind, pairs of pitch angles, positive wind and rotor speeds, numbers of sectors, exact root finders; stations solved without warning and outside the 1e-6 guard of Buhl's formula; for the angles all loss, drag and wake options", "why_tests_cant": "monotonicity over a continuum of pitch angles and all designs, which a pitch controller relies on; the response of the induction works against the pitch, and a sampled pitch curve cannot exclude that it wins somewhere", "anchors": ["ccblade/src/bem.f90: inductionFactors, relativeWind", "ccblade/ccblade.py: CCBlade.distributedAeroLoads, CCBlade.evaluate"]}
{"id": "C115", "title": "The tolerance of the root finder bounds the error of the inflow angle, and the results converge with it", "statement": "In attached flow (the conditions of C112; iterRe = 1, the default, or airfoils that ignore the Reynolds number) a root finder that only promises a change of sign within a tolerance of its result, as brentq does, never fails or warns at a station that an exact solver can solve with non-negative lift; its inflow angle differs from the exact one by at most the tolerance and its angle of attack by at most 180/pi times it. As the tolerance tends to zero, so do the errors of lift, drag, induction factors, relative speed and forces of the station, and the power, thrust, torque, hub forces and moments and root moment that evaluate reports tend to the exact ones.", "quantifier": "all rotors (curved, swept, coned, tilted, yawed), wind and rotor speeds, pitch angles, sectors, all loss, drag and wake options, all root finders with the promise, any net of tolerances; airfoils continuous; outside the 1e-6 guard of Buhl's formula on the search interval; derivatives not included", "why_tests_cant": "a bound for every function-dependent choice of a numerical root finder; tests compare with one solver at one tolerance, and the residual is steep near both ends of the interval and the routine switches between formulas that agree only at the exact solution", "anchors": ["ccblade/ccblade.py: CCBlade.distributedAeroLoads (brentq)", "ccblade/src/bem.f90: inductionFactors, relativeWind, thrustTorque", "ccblade/ccblade.py: CCBlade.evaluate"]}
{"id": "C116", "title": "Wider blades take more thrust in attached flow", "statement": "For airfoils that ignore the Reynolds number, in attached flow (the conditions of C112), a larger chord at fixed twist, wind, rotor speed and pitch lowers the inflow angle and the angle of attack of every station with positive lift (with wake rotation: that does not brake the rotor). If drag is used, the normal force per unit span nevertheless rises: the loss in lift coefficient never outweighs the gain in area; and for a straight rotor in axial wind evaluate reports a larger thrust and blade root moment for the wider blades.", "quantifier": "all pairs of rotors that differ in the chord only, airfoils of this kind, wind and rotor speeds, pitch angles, sectors, exact root finders; stations solved without warning below 90 degrees and outside the 1e-6 guard of Buhl's formula; all loss and wake options, for the angles also with and without drag", "why_tests_cant": "monotonicity over a continuum of designs, which gradient-based chord optimisation relies on; the induction works against the chord, and the switch to Buhl's formula lies in between", "anchors": ["ccblade/src/bem.f90: inductionFactors, relativeWind", "ccblade/ccblade.py: CCBlade.distributedAeroLoads, CCBlade.evaluate"]}
{"id": "C117", "title": "With usecd=False drag acts on the loads only", "statement": "For a rotor with usecd=False, replacing the airfoils by ones with the same lift and another drag changes neither the inflow angle, the warning, the induction factors, the angle of attack, the lift, the relative speed nor the Reynolds number of any station, in the direct and in the inverse analysis, for every number of passes over the Reynolds number; the normal force changes by q c (cd' - cd) sin(phi) and the tangential force by -q c (cd' - cd) cos(phi), with both drag coefficients taken at one state. Without derivatives both analyses fail together, with the same exception. More drag therefore never lowers thrust and blade root moment and never raises torque and power, if the blades point outward and the inflow angles lie between 0 and 90 degrees.", "quantifier": "all rotors (curved, swept, coned, tilted, yawed), pairs of airfoils with equal lift, wind and rotor speeds including standstill, pitch and azimuth angles, sectors, all root finders, the other options in all settings", "why_tests_cant": "independence of the iterative solution from an input, for every root finder and every airfoil; a test compares a few polars", "anchors": ["ccblade/src/bem.f90: inductionFactors", "ccblade/ccblade.py: CCBlade.__runBEM, CCBlade.__loads, CCBlade.distributedAeroLoads, CCBlade.evaluate"]}
{"id": "C118", "title": "Tip and hub losses take load off the blade in attached flow", "statement": "Take a rotor with some of the loss options (tiploss, hubloss) on and the same rotor with fewer of them on, all other options equal, at one condition in attached flow (lift does not fall with the angle of attack; where the residual uses drag, drag does not fall with the angle of attack), and a solver that returns exact roots. At a station solved with lift in both, the losses lower (never raise) the inflow angle and the angle of attack; with wake rotation this asks that the station without the losses does not brake the rotor. With wake rotation off, and a drag that does not fall and does not outgrow the lift, the losses lower (never raise) the normal force, and the tangential force if it drives the rotor; for blades that point outward (any cone, precurve, tilt, yaw, shear) they then lower (never raise) the thrust, the blade root moment, the torque and the power that evaluate returns.", "quantifier": "for all rotors, all pairs of options of which the second has a subset of the losses of the first, all conditions and all exact root finders under the stated attached-flow hypotheses", "why_tests_cant": "The loss factor enters the residual through the wake formula with a branch and through the swirl, and the loads follow from the root; that the sign of the effect is the same for every airfoil, station and condition needs the monotonicity of both sides of the inflow equation.", "anchors": ["ccblade/ccblade.py:CCBlade.evaluate", "ccblade/ccblade.py:CCBlade.distributedAeroLoads", "ccblade/src/bem.f90:inductionFactors"]}
{"id": "C119", "title": "Dividing the blade more finely converges to the integrals of the section loads", "statement": "For a straight (possibly coned) blade given by chord, twist and airfoil along the radius, the result of distributedAeroLoads at a station (inflow angle, warning, loads, derivatives) depends on the radius of the station only, not on where and how many the other stations are. If the section loads so defined are bounded and continuous between hub and tip (as they are in attached flow, C112, on a blade whose chord, twist and airfoil vary continuously, with the drag in the residual), then for every eps there is a delta such that evaluate, for every choice of stations at most delta apart and at most delta from hub and tip, returns thrust, blade root moment, torque and power within eps of the integrals of the section loads over the blade, summed over the blades and averaged over the azimuths. For loads bounded by A that change by at most K per unit length the error of the thrust is at most B cos(precone) (K (Rtip - Rhub) + A) d for stations at most d apart.", "quantifier": "all rotors with straight blades (any cone below 90 degrees, tilt, yaw, shear, number of blades and sectors, options, passes over the Reynolds number), all blade shapes, all conditions, all choices of stations, all root finders", "why_tests_cant": "a limit over all divisions of the blade; a convergence study shows a few of them", "anchors": ["ccblade/ccblade.py: CCBlade.distributedAeroLoads, CCBlade.evaluate", "ccblade/src/bem.f90: thrustTorque, defineCurvature, windComponents"]}
{"id": "C120", "title": "More sectors: the results converge to the means over the revolution", "statement": "For a rotor in any wind (tilt, yaw, cone, shear) whose distributed loads are continuous over the revolution, thrust, side forces, torque, hub moments, blade root moment and power returned by evaluate tend, as nSector grows, to the means over a full revolution of what distributedAeroLoads reports; if the loads of each station change at a bounded rate with the azimuth, thrust, torque, root moment and power are off by at most a constant over nSector. In attached flow with continuous airfoil coefficients the loads are continuous over the revolution, so the convergence needs no further hypothesis.", "quantifier": "all rotors, conditions, root finders (exact ones for the last part), numbers of sectors, positions in the list of conditions", "why_tests_cant": "a limit over all numbers of sectors; a convergence study shows a few of them, and the existing tests use one or four or eight", "anchors": ["ccblade/ccblade.py: CCBlade.evaluate, CCBlade.distributedAeroLoads", "ccblade/src/bem.f90: windComponents, thrustTorque"]}
{"id": "C121", "title": "Continuity in attached flow", "statement": "At a station in attached flow (C112) solved with lift, with airfoil coefficients that are continuous in angle of attack and Reynolds number, the inflow angle, the coefficients and the normal and tangential force vary continuously with the airfoil, chord, twist, radius, hub and tip radius, density, viscosity, pitch and the inflow components; thrust, side forces, torque, hub moments, root moment and power of the rotor vary continuously with airfoils, chord, twist, density, viscosity, hub height, shear exponent, yaw, tilt, wind speed, rotor speed and pitch, and so do the coefficients of the rotor away from zero wind. No airfoil coefficient has to be differentiable, and nothing is supposed of the uniqueness of the root or of the derivatives switched on.", "quantifier": "all rotors, airfoils, filters of designs and conditions in attached flow, exact root finders, loss and drag options; outside the 1e-6 guard of Buhl's formula and k = -1", "why_tests_cant": "continuity over a continuum of designs and conditions with airfoils that have kinks; tests compare finitely many smooth points", "anchors": ["ccblade/ccblade.py: CCBlade.distributedAeroLoads, CCBlade.evaluate", "ccblade/src/bem.f90: inductionFactors, relativeWind, windComponents"]}
{"id": "C122", "title": "In attached flow the angle is found", "statement": "At a station in attached flow (C112) with continuous airfoil coefficients, outside the 1e-6 guard of Buhl's formula, if the residual is not positive at some angle between 1e-6 and 90 degrees at which the section has lift, then a bracketing root finder is given the interval from 1e-6 to 90 degrees and returns an angle in it at which the residual vanishes and the section has lift; no warning is issued. Without drag in the residual (or where drag vanishes) it is enough that the angle of zero lift is positive and not above the inflow angle of the undisturbed wind. A rotor all of whose stations meet this in every sector therefore has the unique, convergent and continuous results of C112, C119 and C121, without assumptions on the angles returned. A station found at one wind speed is found at every higher one (airfoils without Reynolds dependence), so that on a straight rotor in axial wind whose stations are driven at the starting angle, thrust, root moment, torque and power rise with the wind speed (C113) from conditions on the data alone, and are continuous, strictly increasing functions of the wind speed from there on; every power in between is reported at exactly one wind speed.", "quantifier": "all rotors, airfoils with continuous rising lift, wind and rotor speeds, pitch, azimuth, loss, drag and wake-rotation options; every root finder that finds the sign change of a function with a single one", "why_tests_cant": "existence of the solution over a continuum of sections, airfoils and conditions; tests find it for sample rotors only, and the residual is not continuous at 90 degrees nor where 1 + k vanishes", "anchors": ["ccblade/ccblade.py: CCBlade.distributedAeroLoads (bracket selection and brentq), CCBlade.__errorFunction", "ccblade/src/bem.f90: inductionFactors"]}
{"id": "C123", "title": "Plots show the data they name", "statement": "Polar.plot returns three figures: lift, drag and moment coefficient of the polar over its angles of attack, labelled with its Reynolds number in millions; Airfoil.plot returns such figures for its polars; a column that has not the length of the angles raises ValueError. With --plot, a run of airfoilprep.py that succeeds without it succeeds, writes the same files, and shows each polar of the source together with the corrected or extrapolated polar of the same Reynolds number under the right labels, or each blended polar.", "quantifier": "all polars and airfoils, all files, all arguments of the command line, all spline and line fits", "why_tests_cant": "figures are not tested at all; that curves, labels and polars belong together for every number of polars, and that plotting never changes the file, is a statement about all inputs", "anchors": ["ccblade/airfoilprep.py: Polar.plot, Airfoil.plot, the main program (--plot)"]}
{"id": "C124", "title": "The object after evaluate is that of the last sector", "statement": "After evaluate returns, the object is as if distributedAeroLoads had been called once, at the azimuth 360(1 - 1/nSector) of the last operating condition: pitch, saved derivatives and, in inverse mode, the twist are those found there, and so is the relative wind speed W returned. The twist found by the inverse analysis makes the angle of attack the prescribed one in every sector.", "quantifier": "all rotors, lists of conditions, numbers of sectors, root finders, with and without derivatives; all prescribed angles of attack", "why_tests_cant": "state carried through two nested loops over conditions and sectors of any length; stored results of axial cases with one sector cannot show which sector the twist belongs to", "anchors": ["ccblade/ccblade.py: CCBlade.evaluate ll. 1270-1325, 1458", "ccblade/ccblade.py: CCBlade.distributedAeroLoads ll. 955-1005"]}
{"id": "C125", "title": "Turning faster, more thrust", "statement": "At fixed wind and pitch, in attached flow with drag in the residual (usecd=True), evaluate reports a larger thrust and blade root moment at a higher rotor speed, and a smaller inflow angle and angle of attack at every station, provided the normal force coefficient of each section over the squared sine of the inflow angle falls as that angle grows. Up to a speed at which every station is solvable both are continuous, strictly increasing functions of the rotor speed.", "quantifier": "all straight rotors in axial wind with airfoils that ignore the Reynolds number, losses and wake rotation on or off, momentum and Buhl regions; all pairs of rotor speeds below one at which the stations are solvable", "why_tests_cant": "an ordering between solutions of a nonlinear equation at every pair of rotor speeds; the loss factor changes with the inflow angle in the direction that hides the effect", "anchors": ["ccblade/src/bem.f90: inductionFactors", "ccblade/ccblade.py: CCBlade.distributedAeroLoads", "ccblade/ccblade.py: CCBlade.evaluate"]}
{"id": "C126", "title": "More blades take more thrust", "statement": "Take two rotors that differ only in the number of blades passed to the constructor. The blades are straight, the wind is axial, the residual uses drag but not wake rotation, and every station has an attached solution with lift on both. Then `evaluate` reports a larger thrust for the rotor with more blades. At every station the normal force per length times the number of blades is larger too. This holds with and without tip and hub losses.", "quantifier": "all pairs of blade numbers; all straight rotors in axial wind with airfoils that ignore the Reynolds number, losses on or off, momentum and Buhl regions; all exact root finders, sectors and stations", "why_tests_cant": "The number of blades enters the solidity, both Prandtl factors and the final sum. The inflow angle can move either way when a blade is added, so no comparison of single runs shows that the sum always grows.", "anchors": ["ccblade/src/bem.f90: inductionFactors", "ccblade/ccblade.py: CCBlade.distributedAeroLoads", "ccblade/ccblade.py: CCBlade.evaluate"]}
{"id": "C127", "title": "Airfoils with more lift take more thrust", "statement": "Take two rotors that differ only in the list of airfoils passed to the constructor. At every inflow angle in the first quadrant each airfoil of the second has more lift and no less drag than its counterpart. The blades are straight, the wind is axial, the residual uses drag, and every station has an attached solution with lift on both. With wake rotation, in addition, the drag of the airfoils is the same and no station of the first rotor brakes it. Then evaluate reports a larger thrust and a larger blade root moment for the second rotor, and the normal force is larger at every station. This holds with and without tip and hub losses.", "quantifier": "all pairs of airfoil lists ordered in this way that ignore the Reynolds number or are evaluated with one pass; all straight rotors in axial wind, losses and wake rotation on or off, momentum and Buhl regions; all exact root finders, sectors and stations", "why_tests_cant": "an ordering between the solutions of two nonlinear equations with arbitrary airfoil functions; more lift lowers the inflow angle and with it the angle of attack, so the comparison at one angle does not decide it", "anchors": ["ccblade/src/bem.f90: inductionFactors", "ccblade/ccblade.py: CCBlade.distributedAeroLoads", "ccblade/ccblade.py: CCBlade.evaluate"]}
{"id": "C128", "title": "More drag raises the thrust and costs power", "statement": "Take two rotors that differ only in the drag of their airfoils, with the residual using drag (usecd=True) but not wake rotation. The second has more drag at every inflow angle in the first quadrant. The blades are straight, the wind is axial, and every station has an attached solution with lift on both. Then at every station the second rotor has a smaller inflow angle and angle of attack and a larger normal force, and evaluate reports a larger thrust and blade root moment. If every station drove the first rotor and its drag to lift ratio does not rise with the angle, the second has a smaller torque and power.", "quantifier": "all pairs of airfoil lists with equal lift and ordered drag that ignore the Reynolds number or are evaluated with one pass; all straight rotors in axial wind, losses on or off, momentum and Buhl regions; all exact root finders, sectors and stations", "why_tests_cant": "drag changes the momentum balance, so inflow angle, lift and relative speed all move; only a comparison of the solutions of the two equations shows the direction of each output", "anchors": ["ccblade/src/bem.f90: inductionFactors", "ccblade/ccblade.py: CCBlade.distributedAeroLoads", "ccblade/ccblade.py: CCBlade.evaluate"]}
{"id": "C129", "title": "Blade data of different lengths", "statement": "The lists chord, theta and af passed to the constructor belong to the radii in r. distributedAeroLoads and evaluate return a result only if each of them has as many entries as r, and then it is that of the blade with the i-th chord, twist and airfoil at radius i; otherwise they raise an exception.", "quantifier": "all constructor arguments and lists of any lengths, root finders, operating conditions and azimuth angles; direct analysis; precurve and presweep of the right length", "why_tests_cant": "lengths are unbounded and every list can be too short or too long on its own; tests use blade data of one length", "anchors": ["ccblade/ccblade.py: CCBlade.__init__, CCBlade.distributedAeroLoads, CCBlade.evaluate"]}
