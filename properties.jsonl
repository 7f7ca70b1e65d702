{"id": "C01", "title": "Field geometry stays consistent", "statement": "After any sequence of ProbabilityField calls (construction, expand, insert, rasterize, register, reset), if the field has a grid then xmax = xmin + (ncols-1)*deltax, ymax = ymin + (nrows-1)*deltay, there are at least 3 rows and 3 columns, both arrays have shape (nrows, ncols), and deltax/deltay never change.", "quantifier": "every constructor argument and every finite history of method calls, including calls that raise", "why_tests_cant": "the corners are updated separately from the arrays by four growth branches, a constructor and two error paths; a test fixes one sequence, the claim is an invariant of every sequence", "anchors": ["oneka/probabilityfield.py: ProbabilityField.__init__, expand, insert, rasterize, register, reset"]}
{"id": "C02", "title": "Grid nodes never leave their lattice", "statement": "A field constructed with an origin (xo, yo) only ever has nodes at (xo + p*deltax, yo + q*deltay) with integer p, q, so values of different realizations are always accumulated on the same nodes.", "quantifier": "every origin, spacing and finite history of calls", "why_tests_cant": "each expansion recomputes the corner from the previous one; a drift by a fraction of a cell would show only after a particular chain of expansions to the west and south, and only as slightly wrong probabilities", "anchors": ["oneka/probabilityfield.py: __init__, expand"]}
{"id": "C03", "title": "expand makes the box strictly interior", "statement": "After expand(xmin, xmax, ymin, ymax) returns, the field satisfies field.xmin < xmin, xmax < field.xmax, field.ymin < ymin and ymax < field.ymax, whether or not the field had a grid before.", "quantifier": "every field reachable by calls and every ordered box", "why_tests_cant": "the branches differ between the first call and later calls and between the four sides; strict versus non-strict interior is decided on a continuum of positions relative to the grid lines", "anchors": ["oneka/probabilityfield.py: expand"]}
{"id": "C04", "title": "expand preserves accumulated contents", "statement": "expand never changes total_weight, nor the weight or the registration mark seen at any world position; every newly created node has weight 0 and is unmarked.", "quantifier": "every reachable field, every box, every world position", "why_tests_cant": "index shifts may be wrong only for some combination of left/bottom growth", "anchors": ["oneka/probabilityfield.py: expand"]}
{"id": "C05", "title": "expand is minimal and idempotent", "statement": "expand adds a row or column on a side only if without it the box would not be strictly interior; repeating the same expand, or expanding to a box already strictly inside, leaves the field exactly as it was.", "quantifier": "every reachable field with a grid and every box", "why_tests_cant": "minimality and idempotence are decided at equality of the box with a grid line, a set of measure zero that random tests never hit and hand-written tests hit for one alignment", "anchors": ["oneka/probabilityfield.py: expand"]}
{"id": "C06", "title": "expand rejects inverted boxes and always returns otherwise", "statement": "expand raises RangeError exactly when xmin > xmax or ymin > ymax, and then the field is unchanged; otherwise its growth loops terminate.", "quantifier": "every reachable field and every four coordinates", "why_tests_cant": "that the loops end is a claim about all inputs; a test that would refute it does not come back", "anchors": ["oneka/probabilityfield.py: expand"]}
{"id": "C07", "title": "distancesquared is the squared distance to the segment", "statement": "For distinct endpoints a and b, distancesquared(a, b, c) is the minimum over all points s of the closed segment [a,b] of |c-s|^2 (the distance to the segment, not to its line).", "quantifier": "all a != b and all c in the plane", "why_tests_cant": "three branches (before, beyond and beside the segment) over a six-dimensional continuum; a wrong branch condition changes the value only in part of the plane", "anchors": ["oneka/probabilityfield.py: distancesquared"]}
{"id": "C08", "title": "insert marks exactly the grid nodes within umbra", "statement": "After insert(a, b, umbra) with a != b and umbra >= 0, a grid node is marked iff it was marked before or lies at distance strictly less than umbra from the segment; weights, total_weight and geometry are unchanged, and no indexing error occurs.", "quantifier": "every reachable field, all segments, all umbra >= 0, all nodes", "why_tests_cant": "the code visits only a sub-grid computed by floor and ceil; whether this ever cuts off a node within the umbra depends on the alignment of segment and grid, and tests see a few alignments", "anchors": ["oneka/probabilityfield.py: insert"]}
{"id": "C09", "title": "rasterize marks exactly the grid nodes within umbra of the track", "statement": "After rasterize(x, y, umbra), the marked nodes are those marked before plus those nodes of the (expanded) grid strictly within umbra of some non-degenerate segment of the track; weights are unchanged.", "quantifier": "every reachable field, every track of any length, every umbra >= 0", "why_tests_cant": "tracks have any number of vertices and expand the grid first; the claim relates the result to every segment and every node at once", "anchors": ["oneka/probabilityfield.py: rasterize, insert, expand"]}
{"id": "C10", "title": "A node within umbra of a track is always recorded", "statement": "Documented: if a grid node is within umbra of a particle path it is marked as visited. For every lattice node within umbra of a rasterized track the node is marked afterwards.", "quantifier": "every reachable field with an origin, every track, every umbra", "why_tests_cant": "fails only when the umbra reaches outside the grid or on zero-length segments", "anchors": ["oneka/probabilityfield.py: rasterize, expand", "oneka/capturezone.py: compute_capturezone docstring"]}
{"id": "C11", "title": "The result does not depend on the order of realizations", "statement": "Permuting the realizations (groups of rasterize calls followed by register), or the tracks inside one realization, leaves the weight at every world position and total_weight unchanged.", "quantifier": "every list of realizations, every permutation", "why_tests_cant": "there are factorially many orders of unboundedly many tracks, and the grid expands differently in each", "anchors": ["oneka/probabilityfield.py: rasterize, register, expand"]}
{"id": "C12", "title": "Accumulated weight is the sum over the realizations that visited the node", "statement": "After any history on a field with an origin, total_weight is the sum of all registered weights, and the weight at a lattice position equals the sum of the weights of those registered realizations in which some track passed strictly within umbra of it, each realization counted once however many of its tracks pass; this holds at every position that was a node from the start, and everywhere if no umbra exceeds the spacing (see C10 for the other case). Off the lattice nothing is recorded.", "quantifier": "every finite history of rasterize/register/reset/expand on a field with an origin", "why_tests_cant": "histories interleave drawing, registering, expanding and discarding without bound; double counting appears only when two tracks of one realization pass the same node", "anchors": ["oneka/probabilityfield.py: register, reset, rasterize"]}
{"id": "C13", "title": "Probabilities are between 0 and 1", "statement": "If all registered weights are >= 0 then at every node 0 <= pgrid <= total_weight; hence pgrid/total_weight lies in [0,1] whenever total_weight > 0.", "quantifier": "every finite history with non-negative weights", "why_tests_cant": "an invariant over all histories: a probability above one needs a particular interleaving, e.g. marks surviving a registration", "anchors": ["oneka/probabilityfield.py: register, expand"]}
{"id": "C14", "title": "reset discards exactly the unregistered realization", "statement": "After reset no node is marked; weights at all world positions and total_weight are those before the discarded drawing calls. A discarded realization leaves no trace in later results: at nodes present from the start, and everywhere if no umbra exceeds the spacing, the history with the discarded tracks ends with the same weights and marks as without them.", "quantifier": "every history, every discarded group of tracks", "why_tests_cant": "that a discarded realization has no later influence compares two whole histories for every continuation", "anchors": ["oneka/probabilityfield.py: reset, rasterize"]}
{"id": "C15", "title": "Constructor validation and uninitialized fields", "statement": "ProbabilityField(dx, dy, ...) raises RangeError iff dx <= 0 or dy <= 0; without an origin the field is empty until the first expand/rasterize and register/reset/insert raise AttributeError on it without changing it; with an origin the grid is 3x3, all zero, centred on the origin.", "quantifier": "all constructor arguments; all calls on an empty field", "why_tests_cant": "validation at all real numbers including zero and negative ones, and the behaviour of every method on an empty field, also after earlier failed calls", "anchors": ["oneka/probabilityfield.py: __init__, register, reset, insert"]}
{"id": "C16", "title": "rasterize error behaviour", "statement": "rasterize of an empty track raises ValueError and leaves the field unchanged; if y has fewer entries than x it raises IndexError after the available segments were inserted; otherwise it returns.", "quantifier": "every reachable field and all pairs of lists", "why_tests_cant": "the partial effect before the IndexError depends on both lengths and on the state of the field", "anchors": ["oneka/probabilityfield.py: rasterize"]}
{"id": "C17", "title": "A backtrace starts at its starting point and never raises", "statement": "compute_backtrace returns a non-empty vertex list whose first element is (xs, ys), whatever exception the velocity function raises and at whichever evaluation.", "quantifier": "all starts, durations, tolerances and all velocity functions, including ones raising at any call", "why_tests_cant": "the velocity function is a callback: it may raise anything at any of unboundedly many evaluations, inside any of seven stages", "anchors": ["oneka/capturezone.py: compute_backtrace"]}
{"id": "C18", "title": "Consecutive vertices are closer than maxstep and within tolerance", "statement": "Every two consecutive vertices of a backtrace are at distance < maxstep, and the error estimate of every accepted step is < tol.", "quantifier": "all velocity functions and parameters, every accepted step", "why_tests_cant": "the number of steps and rejections is unbounded and depends on the velocity function; a test sees the steps of a few functions", "anchors": ["oneka/capturezone.py: compute_backtrace"]}
{"id": "C19", "title": "A completed backtrace covers exactly the duration", "statement": "If no velocity evaluation fails, then when compute_backtrace returns the accepted time steps all have the sign of duration, never pass it, and sum to exactly duration.", "quantifier": "all velocity functions, all non-zero durations of either sign", "why_tests_cant": "whether the clipped last step lands exactly on the duration depends on the whole history of step sizes", "anchors": ["oneka/capturezone.py: compute_backtrace"]}
{"id": "C20", "title": "Backtraces terminate if the velocity grows at most linearly", "statement": "If the velocity function satisfies |v(p)| <= M + L|p| for some constants (in particular if it is bounded), and tol exceeds (10/9)^5 and maxstep 10/9 times machine epsilon, compute_backtrace returns, for every start and every duration of either sign.", "quantifier": "all velocity functions of at most linear growth (possibly discontinuous, stateful or raising at any call), all finite durations, starts and tolerances above the stated thresholds", "why_tests_cant": "termination for all velocity functions cannot be tested; it needs a lower bound on the adaptive step size", "anchors": ["oneka/capturezone.py: compute_backtrace"]}
{"id": "C21", "title": "compute_backtrace always terminates", "statement": "For every input accepted by the driver compute_backtrace returns.", "quantifier": "all tolerances > 0, all velocity functions incl. those returning NaN", "why_tests_cant": "non-termination cannot be observed by a test, and depends on NaN velocities and on tolerances at the scale of machine epsilon", "anchors": ["oneka/capturezone.py: compute_backtrace"]}
{"id": "C22", "title": "Negative duration traces forward", "statement": "Tracing with duration -T along a velocity function f gives exactly the same vertices as tracing with duration T along -f.", "quantifier": "all T, f, tolerances, starts", "why_tests_cant": "an identity between two complete runs for every velocity function, through every acceptance and rejection", "anchors": ["oneka/capturezone.py: compute_backtrace", "oneka/oneka.py: oneka docstring (duration)"]}
{"id": "C23", "title": "Uniform flow is traced exactly", "statement": "For a constant velocity v the trace terminates, all its vertices lie on the segment from the start to start + duration*v, in order, and the last vertex is start + duration*v.", "quantifier": "all v, durations, starts, tol, maxstep above machine epsilon scale", "why_tests_cant": "the number and sizes of steps vary with speed, tol and maxstep without bound; exactness must survive every one of these histories", "anchors": ["oneka/capturezone.py: compute_backtrace"]}
{"id": "C24", "title": "The integrator is a consistent 5(4) pair", "statement": "The Runge-Kutta constants satisfy all order conditions through order 5, and the error estimator is the difference to a method satisfying all order conditions through order 4; on linear velocity fields one step reproduces the exponential series through degree 5. For a steady velocity a backtrace returns exactly the accepted steps of adaptive integration with this pair, and returns iff that integration ends.", "quantifier": "all linear fields (any real vector space), all step sizes; all rooted trees with <= 5 nodes; all steady velocities, starts, durations, tolerances", "why_tests_cant": "numeric tests hide single-digit coefficient errors, which reduce the order but still converge; the order conditions are exact identities, and equivalence with adaptive integration is about all velocities", "anchors": ["oneka/capturezone.py: compute_backtrace"]}
{"id": "C25", "title": "An interrupted trace is a prefix", "statement": "If the velocity function starts failing (or the user interrupts) at any moment, the returned vertices are a prefix of those the uninterrupted trace would have returned.", "quantifier": "every interruption point, every velocity function", "why_tests_cant": "the interruption can come at any of unboundedly many evaluations, and the claim compares with the run that did not happen", "anchors": ["oneka/capturezone.py: compute_backtrace"]}
{"id": "C26", "title": "Traces only contain finite vertices", "statement": "With a finite starting point every vertex of a backtrace is finite, even if the velocity function returns inf or NaN at some points (e.g. exactly at a well).", "quantifier": "all velocity functions over IEEE-like extended numbers", "why_tests_cant": "special values can come from any evaluation, and comparisons with NaN are silently false, so a test must hit the particular stage and branch", "anchors": ["oneka/capturezone.py: compute_backtrace"]}
{"id": "C27", "title": "Starting points surround the well uniformly", "statement": "compute_capturezone starts exactly npaths traces, at pairwise distinct points at distance exactly rtarget + 1 from the target well, with equal angular spacing 2*pi/npaths, the first one due east.", "quantifier": "all npaths >= 1, radii > 0, well locations", "why_tests_cant": "for all numbers of paths; an endpoint included by mistake duplicates one start and is easily overlooked in a plot", "anchors": ["oneka/capturezone.py: compute_capturezone"]}
{"id": "C28", "title": "One capture-zone run registers exactly one realization", "statement": "compute_capturezone increases total_weight by exactly weight, and increases the weight of a grid node by weight if one of the npaths traces passes strictly within umbra, else by 0; no marks are left behind.", "quantifier": "all fields, weights, velocity functions for which the traces terminate", "why_tests_cant": "depends on all traces of all velocity functions and on the earlier contents of the field", "anchors": ["oneka/capturezone.py: compute_capturezone"]}
{"id": "C29", "title": "Discharge is minus the gradient of the potential", "statement": "At every point that is not a well location, compute_discharge returns (-dPhi/dx, -dPhi/dy) of the function computed by compute_potential.", "quantifier": "all models, all points off the wells", "why_tests_cant": "a derivative at a continuum of points; the two hard-coded constants must match exactly", "anchors": ["oneka/model.py: Model.compute_potential, compute_discharge"]}
{"id": "C30", "title": "Recharge is uniform and flow irrotational", "statement": "Away from wells the divergence of the discharge is -2(A+B), and the curl is zero; the recharge value logged by a run equals this divergence.", "quantifier": "all models and points off wells", "why_tests_cant": "second derivatives at every place off the wells for all models; the sign of the logged value is never compared with the model in a test run", "anchors": ["oneka/model.py: compute_discharge", "oneka/stochastic.py: create_stochastic_capturezone (log)", "oneka/deterministic.py: create_deterministic_capturezone (log)"]}
{"id": "C31", "title": "Wells superpose", "statement": "Potential and discharge of a model are the regional part plus the sum over wells of each well's own contribution: independent of the order of the wells, additive over concatenation, unaffected by zero-discharge wells, linear in the discharges.", "quantifier": "all well lists and permutations (off the wells)", "why_tests_cant": "well lists of any length and order, at all places", "anchors": ["oneka/model.py: compute_potential_wells_only, compute_discharge"]}
{"id": "C32", "title": "Head and potential are mutually inverse", "statement": "With positive conductivity and thickness, compute_head is the unique positive head h whose potential (K*h^2/2 if h < T else K*T*(h - T/2)) is the computed potential; it is continuous and strictly increasing in the potential.", "quantifier": "all models and points with positive potential", "why_tests_cant": "the two regimes must join for all conductivities and thicknesses; uniqueness and monotonicity are claims about a continuum", "anchors": ["oneka/model.py: compute_head, construct_fit"]}
{"id": "C33", "title": "Dry aquifer errors", "statement": "compute_head raises AquiferError iff the potential is <= 0; compute_velocity raises AquiferError exactly in the same cases, and compute_velocity_confined never raises.", "quantifier": "all models, all points", "why_tests_cant": "the dry region is bounded by a level curve of the potential; the boundary case potential = 0 has measure zero", "anchors": ["oneka/model.py: compute_head, compute_velocity, compute_velocity_confined"]}
{"id": "C34", "title": "Velocity is discharge over saturated pore thickness", "statement": "compute_velocity returns the discharge divided by porosity*min(head, thickness); it equals compute_velocity_confined wherever head >= thickness, and elsewhere it is at least as large in magnitude and has the same direction.", "quantifier": "all models with positive K, T, porosity and points where defined", "why_tests_cant": "compares two API functions at every place in both regimes", "anchors": ["oneka/model.py: compute_velocity, compute_velocity_confined"]}
{"id": "C35", "title": "fit_regional_flow minimises the weighted squared error", "statement": "After fit_regional_flow the model's own compute_potential minimises, over all six-tuples of coefficients, the sum over observations of ((Phi(x_i,y_i) - pot_i)/std_i)^2 with the FOSM potentials; the model's origin and coefficients are updated consistently with the returned vector.", "quantifier": "all observation lists with heads above the base, positive standard deviations and no observation at a well; all wells, all competing coefficients", "why_tests_cant": "a minimisation over all six-tuples of coefficients, for all observation lists; a test can only compare with a few competitors", "anchors": ["oneka/model.py: fit_regional_flow, construct_fit, compute_fit"]}
{"id": "C36", "title": "fit recovers an exact model", "statement": "If the FOSM potentials of the observations are exactly those of some regional flow plus the wells, and the fit does not fail, the fitted coefficients are exactly those of that flow.", "quantifier": "all regional flows, all well sets, all non-degenerate observation sets", "why_tests_cant": "for all regional flows and well sets; a wrong basis function or a transposed coefficient is hidden when the test flow is symmetric", "anchors": ["oneka/model.py: fit_regional_flow"]}
{"id": "C37", "title": "The fit fails exactly for degenerate observation layouts", "statement": "fit_regional_flow raises LinAlgError (singular normal matrix) iff all observation locations lie on one conic (some non-zero quadratic vanishes at all of them); in particular whenever there are fewer than six distinct locations or all are collinear; duplicate locations alone do not cause it.", "quantifier": "all observation lists", "why_tests_cant": "degenerate layouts are a null set: circles, hyperbolas and line pairs, not only collinear points; the converse direction is about all other layouts", "anchors": ["oneka/model.py: fit_regional_flow docstring, compute_fit"]}
{"id": "C38", "title": "Observations below the base are rejected", "statement": "fit_regional_flow raises RangeError iff some observation has z_ev <= base, and then the model (origin and coefficients) is unchanged.", "quantifier": "all observation lists", "why_tests_cant": "the bad observation may be anywhere in the list, and the model must be untouched, including its origin", "anchors": ["oneka/model.py: construct_fit, fit_regional_flow"]}
{"id": "C39", "title": "The fitted potential surface does not depend on the local origin", "statement": "Fitting with two different origins (xo,yo) gives the same fitted potential at every point (when the fit succeeds).", "quantifier": "all origins, all observation sets, all points", "why_tests_cant": "relates two fits with different design matrices at every point and for every pair of origins", "anchors": ["oneka/model.py: fit_regional_flow"]}
{"id": "C40", "title": "Covariance matrix of the fit", "statement": "The returned covariance matrix is symmetric positive definite and equals the inverse of the weighted normal matrix; scaling all observation standard deviations by s>0 in the confined case scales it by s^2 and does not change the coefficients.", "quantifier": "all observation lists for which the fit succeeds", "why_tests_cant": "symmetry, definiteness and scaling of a matrix inverse, for all observation lists", "anchors": ["oneka/model.py: compute_fit, construct_fit"]}
{"id": "C41", "title": "Random variates stay within their distribution", "statement": "For a distribution accepted by isdistribution(arg, lb, ub) (scalar, pair tuple, or triple tuple with min < max), every value generate_random_variate can return lies in [min,max], hence in [lb,ub]; a scalar is returned unchanged.", "quantifier": "all distributions and all random draws", "why_tests_cant": "all draws: a value just outside the range needs a particular draw near the end of the unit interval", "anchors": ["oneka/stochastic.py: generate_random_variate, isdistribution"]}
{"id": "C42", "title": "compute_variate_mean is the expected value", "statement": "compute_variate_mean(arg) equals the expectation of generate_random_variate(arg), and lies within the bounds of the distribution.", "quantifier": "all scalar, uniform and triangular distributions", "why_tests_cant": "the expectation is an integral over all draws; a sampling test has statistical error and cannot separate nearby formulas", "anchors": ["oneka/stochastic.py: compute_variate_mean, generate_random_variate"]}
{"id": "C43", "title": "Every accepted distribution can be sampled", "statement": "If isdistribution(arg, lb, ub) is true then generate_random_variate(arg) and compute_variate_mean(arg) return a number.", "quantifier": "all Python values", "why_tests_cant": "validation and use site are separate functions; the claim is about every Python value that the first one accepts, and the failures are rare shapes (lists, equal ends, infinite bounds)", "anchors": ["oneka/stochastic.py: isdistribution, generate_random_variate, compute_variate_mean"]}
{"id": "C44", "title": "Stochastic runs report relative frequencies", "statement": "create_stochastic_capturezone returns a field with total_weight = nrealizations, in which pgrid at a node is the number of realizations in which some trace was recorded there; so pgrid/total_weight is a relative frequency k/nrealizations in [0,1].", "quantifier": "all inputs and all random outcomes", "why_tests_cant": "the counts depend on all random draws of all realizations at once; a test cannot enumerate random outcomes, and double counting or lost realizations change only single nodes", "anchors": ["oneka/stochastic.py: create_stochastic_capturezone"]}
{"id": "C45", "title": "Each realization uses in-range parameters and a freshly fitted model", "statement": "In every realization the model passed to the tracer has conductivity, porosity, thickness and discharges inside their distributions, fixed well locations and radii, and origin at the target well.", "quantifier": "all realizations and draws", "why_tests_cant": "a realization uses many separate draws; mixing up two of them, or reusing the previous fit, yields plausible numbers for every seed", "anchors": ["oneka/stochastic.py: create_stochastic_capturezone"]}
{"id": "C46", "title": "Deterministic runs use the means and give an indicator", "statement": "create_deterministic_capturezone returns total_weight = 1 and every pgrid entry is 0 or 1; the model it traces has the fitted (expected value) coefficients, and its discharges, conductivity, porosity and thickness are the expected values, over a uniform draw, of those that a stochastic run would use.", "quantifier": "all arguments for which the run returns, all distributions", "why_tests_cant": "all inputs; swapping two means yields a plausible capture zone, and the expected value of the stochastic parameters is an integral over all draws", "anchors": ["oneka/deterministic.py: create_deterministic_capturezone"]}
{"id": "C47", "title": "filter_obs removes exactly the observations near wells", "statement": "Every retained observation is farther than buffer from every well; every input observation farther than buffer from all wells contributes to exactly one retained observation, in order; others contribute to none.", "quantifier": "all observation lists, well lists and buffers", "why_tests_cant": "lists of any length: one observation may be near several wells or part of a run of duplicates that extends across a removed one", "anchors": ["oneka/utilities.py: filter_obs"]}
{"id": "C48", "title": "filter_obs conserves information", "statement": "The total precision sum(1/std^2) and the total precision-weighted head sum(z/std^2) of the retained observations equal those of the not-removed input observations.", "quantifier": "all lists with positive standard deviations", "why_tests_cant": "groups of duplicates of any size in any arrangement; the identity must hold for each grouping the loop forms", "anchors": ["oneka/utilities.py: filter_obs"]}
{"id": "C49", "title": "Averaged duplicates are minimum-variance averages", "statement": "An averaged observation's head is between the smallest and the largest head of its group, its std is at most each member's std, and its variance is minimal among all unbiased weighted averages.", "quantifier": "all groups with positive standard deviations, all weightings", "why_tests_cant": "optimality over all weightings is a minimisation, not a finite comparison", "anchors": ["oneka/utilities.py: filter_obs"]}
{"id": "C50", "title": "filter_obs leaves no duplicates and is idempotent", "statement": "Applying filter_obs twice is the same as once; retained observations are pairwise at least TOO_CLOSE = 1 apart (duplicates are averaged).", "quantifier": "all observation lists", "why_tests_cant": "arrangements are unbounded; duplicates that are not adjacent in the list are the case that a test of the usual input misses", "anchors": ["oneka/utilities.py: filter_obs"]}
{"id": "C51", "title": "filter_obs failure", "statement": "filter_obs raises ZeroDivisionError iff a group of more than one duplicate contains an observation with zero standard deviation, otherwise it returns; an isolated zero-std observation is kept unchanged.", "quantifier": "all observation lists", "why_tests_cant": "zero standard deviations matter only inside groups of duplicates, in any position", "anchors": ["oneka/utilities.py: filter_obs"]}
{"id": "C52", "title": "Summary statistics are consistent", "statement": "In the table min <= med <= max, min <= avg <= max, std >= 0 and std <= max-min for every column; cnt is the number of non-NaN values; a column with none raises.", "quantifier": "all value tables", "why_tests_cant": "inequalities between order statistics and moments for all data, including columns with missing values", "anchors": ["oneka/utilities.py: summary_statistics"]}
{"id": "C53", "title": "Impact curve is the sorted exceedance curve", "statement": "create_impact_plot returns pr = all node probabilities in non-increasing order (a permutation of pgrid/total_weight), each in [0,1], and area[k] = (k+1)*spacing^2, so for every threshold the nodes with probability above it form a prefix.", "quantifier": "all reachable fields with positive total weight", "why_tests_cant": "fields of any size with any ties; the curve is a sorted rearrangement of all of them", "anchors": ["oneka/visualize.py: create_impact_plot"]}
{"id": "C54", "title": "Reported decile areas are exceedance areas", "statement": "For each p the area logged by oneka is the area of the nodes whose capture probability exceeds p.", "quantifier": "all fields, all thresholds", "why_tests_cant": "the error is one cell for every field and threshold, invisible at the usual number of cells", "anchors": ["oneka/oneka.py: oneka (decile table)", "oneka/visualize.py: create_impact_plot"]}
{"id": "C55", "title": "Deterministic capture-zone area", "statement": "create_deterministic_plot returns deltax*deltay times the number of nodes with positive probability.", "quantifier": "all reachable fields with positive total weight", "why_tests_cant": "fields of any size and spacing", "anchors": ["oneka/visualize.py: create_deterministic_plot"]}
{"id": "C56", "title": "Empty capture zones are refused", "statement": "The three plot functions raise CaptureZoneError iff total_weight <= 0.", "quantifier": "all initialized fields", "why_tests_cant": "the boundary total_weight = 0, for all fields and all three functions", "anchors": ["oneka/visualize.py: create_probability_plot, create_deterministic_plot, create_impact_plot"]}
{"id": "C57", "title": "Head contour maps survive dry nodes", "statement": "contour_head shows NaN at dry nodes and the head elsewhere; contour_potential shows the discharge potential at every node that is not a well.", "quantifier": "all models and grids", "why_tests_cant": "holds or fails depending on whether any node of any map of any model is dry; the failure is an exception handler that no test with a wet map reaches", "anchors": ["oneka/visualize.py: contour_head"]}
{"id": "C58", "title": "Rejected arguments have no effect", "statement": "If any argument check fails, oneka raises and has neither logged, plotted nor archived anything.", "quantifier": "all argument tuples (arbitrary Python values)", "why_tests_cant": "the arguments are arbitrary Python values; a test suite can only try some invalid tuples, not show that no invalid tuple gets past the checks or leaves a trace", "anchors": ["oneka/oneka.py: oneka"]}
{"id": "C59", "title": "Accepted arguments are usable", "statement": "oneka accepts exactly the documented argument ranges; omitted optional arguments take acceptable defaults.", "quantifier": "all argument tuples", "why_tests_cant": "an equivalence between the code and the documented ranges over all Python values (ints, floats, infinities, NaN, wrong types, nested sequences)", "anchors": ["oneka/oneka.py: oneka"]}
{"id": "C60", "title": "A finished run archives its inputs and result", "statement": "When oneka returns, exactly one archive has been written, and loading it yields the original arguments (with the unfiltered observations) and the computed field.", "quantifier": "all accepted arguments, all random outcomes", "why_tests_cant": "quantifies over all accepted arguments, all random outcomes and all previous contents of the file system", "anchors": ["oneka/oneka.py: oneka", "oneka/archive.py: dump_oneka, load_oneka"]}
{"id": "C61", "title": "Archives of different runs do not overwrite each other", "statement": "Archives written at different times get different file names; earlier archives stay loadable.", "quantifier": "all sequences of runs and clock readings", "why_tests_cant": "quantifies over all pairs of clock readings and all failures of the second write; the overlap needs two runs in the same second", "anchors": ["oneka/archive.py: dump_oneka"]}
{"id": "C62", "title": "Net flow through a circle balances recharge and pumping", "statement": "For every circle not passing through a well, the total discharge flowing outward through it is the uniform recharge over its disk minus the pumping of the wells inside.", "quantifier": "all models, all circles avoiding wells", "why_tests_cant": "a contour integral over a continuum, for every circle and every set of wells inside and outside", "anchors": ["oneka/model.py: compute_discharge"]}
{"id": "C63", "title": "Constructing a model is independent of other models", "statement": "A Model built without coefficients starts with six zero coefficients whatever was done to other models; the coefficients must have exactly six entries.", "quantifier": "all histories of constructor, setter, fit and in-place edits", "why_tests_cant": "aliasing through a shared default array shows only in particular histories over several models", "anchors": ["oneka/model.py: Model.__init__, coef"]}
{"id": "C64", "title": "Traces clear of singularities return", "statement": "With the velocity of an aquifer model, tolerances above machine-epsilon scale and a finite duration, tracing returns unless velocity gets evaluated arbitrarily close to a well, or (unconfined) arbitrarily close to a dry place.", "quantifier": "all models, starts, durations, tolerances", "why_tests_cant": "termination over a continuum of models and starts; a run that does not end cannot be told from a slow one", "anchors": ["oneka/capturezone.py: compute_backtrace", "oneka/model.py: compute_velocity, compute_velocity_confined"]}
{"id": "C65", "title": "What can abort a run", "statement": "A stochastic run raises only what drawing the parameters, fitting the regional flow or drawing the coefficients raises. Failures and interrupts while tracing are absorbed; in particular a keyboard interrupt during tracing does not stop the run: the run still reports the full number of realizations.", "quantifier": "all arguments, draws and interrupts at any velocity evaluation", "why_tests_cant": "an interrupt can hit any of unboundedly many velocity evaluations, and the result must still count the realization", "anchors": ["oneka/stochastic.py: create_stochastic_capturezone", "oneka/capturezone.py: compute_backtrace, compute_capturezone"]}
{"id": "C66", "title": "The impact plot draws the whole curve between 0 and 1", "statement": "If some node has capture probability 0, the drawn points are a contiguous part of the impact curve that contains every point with probability strictly between 0 and 1; otherwise at most one point is drawn.", "quantifier": "all reachable fields with positive total weight, all spacings", "why_tests_cant": "depends on the sorted order of arbitrarily many node probabilities and on argmax's behaviour when nothing matches", "anchors": ["oneka/visualize.py: create_impact_plot"]}
{"id": "C67", "title": "quick_capture_zone cannot draw", "statement": "quick_capture_zone raises AttributeError for every model, well and at least one ray (it calls a method that no model has), and draws nothing.", "quantifier": "all models, wells, numbers of rays", "why_tests_cant": "a statement about every call; one failing call does not show that no call works", "anchors": ["oneka/visualize.py: quick_capture_zone"]}
{"id": "C68", "title": "The archived field is the frequency of capture", "statement": "When oneka returns, the archived field weighs every node by the fraction of the realizations reported in the log in which it was captured: in a stochastic call the total weight is the number of realizations and each node counts the realizations that have a track segment within the umbra of it; in a deterministic call there is one realization, with the mean parameters. Each realization uses the retained observations, the drawn parameters and the fitted coefficients.", "quantifier": "all accepted finite arguments with positive standard deviations, conductivities, porosities and thicknesses; all random outcomes; all interrupts", "why_tests_cant": "composes validation, filtering, sampling, fitting, tracing and rasterising for all random outcomes; there is no reference output to compare with", "anchors": ["oneka/oneka.py: oneka", "oneka/stochastic.py: create_stochastic_capturezone", "oneka/deterministic.py: create_deterministic_capturezone", "oneka/probabilityfield.py: ProbabilityField"]}
{"id": "C69", "title": "Reports are about the archived result", "statement": "The summary table logged by a call describes the retained observations, the plotted field and impact curve and the logged decile lines describe the field that is archived, and nothing else is plotted. The figures are shown once, at the very end, after the archive is complete, and only if the call returns.", "quantifier": "all accepted finite arguments, all random outcomes, all calls that return", "why_tests_cant": "relates outputs in three media (log, figures, archive) for every possible result", "anchors": ["oneka/oneka.py: oneka", "oneka/utilities.py: summary_statistics", "oneka/visualize.py: create_probability_plot, create_impact_plot"]}
{"id": "C70", "title": "Complete list of reasons for failing", "statement": "A call with accepted finite arguments fails only because fewer than seven observations are retained (AssertionError), a retained head is not above the base (RangeError), the retained observations lie on one conic (LinAlgError), the coefficients cannot be drawn, or the archive cannot be opened or written; it runs forever only if a trace does; in all other cases it returns.", "quantifier": "all accepted finite arguments with positive standard deviations, conductivities and thicknesses (zeros: C86); all random outcomes", "why_tests_cant": "a completeness statement: no test shows that there is no further way to fail", "anchors": ["oneka/oneka.py: oneka", "oneka/utilities.py: filter_obs", "oneka/model.py: fit_regional_flow"]}
{"id": "C71", "title": "The log records every argument", "statement": "Every accepted call logs the value of every argument (for wells and observations: one line each), before computing anything, whatever happens later: return, failure, or no end; and logs it once.", "quantifier": "all accepted arguments, all endings, including calls that never end", "why_tests_cant": "quantifies over all ways in which the computation may end, including non-termination", "anchors": ["oneka/oneka.py: oneka, log_the_run"]}
{"id": "C72", "title": "A second well one metre east of the rim makes a call run forever", "statement": "Take an accepted call with confined set, enough usable observations and a finite non-zero duration. If any well stands exactly one metre east of the rim of the target well, then, unless interrupted, the call never ends and writes no archive, whatever the random outcomes.", "quantifier": "all such calls, deterministic or stochastic, all random outcomes", "why_tests_cant": "non-termination cannot be observed by a test; the claim is for all random outcomes and all other arguments", "anchors": ["oneka/capturezone.py: compute_capturezone, compute_backtrace", "oneka/model.py: compute_velocity_confined", "oneka/oneka.py: oneka"]}
{"id": "C73", "title": "Exact recording rule of the probability field, for every umbra", "statement": "After any history of rasterized tracks (any umbra >= 0), expansions, registers and resets on a field constructed with an origin, the nodes are exactly the lattice positions at most one spacing outside the bounding interval (per axis) of the origin and all positions shown to the field; the weight of a lattice position is the total weight of the registered realizations one of whose tracks passed strictly within its umbra at a time when the position was already within that reach. Consequently the field never credits a position with more weight than the realizations that really passed nearby, whatever the umbra.", "quantifier": "for every ordered field of numbers, spacings, origin, and every finite history of valid calls in any order, and every position", "why_tests_cant": "The rule depends on the order in which tracks of all earlier realizations extended the grid; the number of histories is unbounded, and a test at the usual umbra <= spacing never meets the positions that are missed.", "anchors": ["oneka/probabilityfield.py: ProbabilityField.expand", "oneka/probabilityfield.py: ProbabilityField.insert", "oneka/probabilityfield.py: ProbabilityField.rasterize", "oneka/probabilityfield.py: ProbabilityField.register"]}
{"id": "C74", "title": "What the nodes of a finished run count, for every umbra", "statement": "After a stochastic or deterministic run, and in the archive of a call that returns, the nodes are exactly the positions of the lattice through the target well that are at most one spacing outside the vertices of all traces, and each node's weight is the number of realizations with a trace passing strictly within the umbra at a time when the node's position was at most one spacing outside the vertices traced so far (hence never more than the number of realizations that pass within the umbra). No condition on umbra and spacing is needed, so this covers the shipped data sets, whose umbra exceeds the spacing.", "quantifier": "for every argument list with finite numbers, every sequence of random draws, every linear-algebra backend, every interrupt schedule, every number of realizations and every position", "why_tests_cant": "Results are random and depend on the order of the realizations; only a statement about all draws fixes what a node's count means.", "anchors": ["oneka/stochastic.py: create_stochastic_capturezone", "oneka/deterministic.py: create_deterministic_capturezone", "oneka/capturezone.py: compute_capturezone", "oneka/probabilityfield.py: ProbabilityField.rasterize", "oneka/oneka.py: oneka"]}
{"id": "C75", "title": "A run of a data module records exactly the constants of the module", "statement": "main(name) passes every constant of the data module on under its own meaning: if it returns, the archive of the run holds each of the eighteen constants (PROJECTNAME, TARGET, ..., MAXSTEP) unchanged under its own key, together with the time at which the run was started; and as soon as the constants have been accepted, whatever happens later (failure, endless trace, interrupt), the log file of the run holds each of them with its label, including one entry for every well and every observation.", "quantifier": "all data modules with any values, all worlds (existing files, log handlers left from earlier runs), all random outcomes, clocks and failures", "why_tests_cant": "The nineteen arguments are passed by position, so exchanging two of the same type (spacing and umbra, tol and maxstep, buffer and smooth) goes unnoticed by a test whose module has equal values; only a statement for all values rules that out.", "anchors": ["runme.py: main", "oneka/oneka.py: oneka, log_the_run", "data/*.py"]}
{"id": "C76", "title": "Failing data modules leave no trace", "statement": "For a module that is not found, main prints a message and returns, and no file has changed. If the import fails in another way, main raises that exception and no file has changed. If any of the eighteen constants is missing, or the constants are not acceptable, main raises (AttributeError; AssertionError or TypeError; or the failure to create the log file), and no archive and no contents of any log file have changed.", "quantifier": "all module names, all modules, all values of the constants, all worlds", "why_tests_cant": "The space of unacceptable modules is unbounded, and absence of any change in all files is a statement about every world.", "anchors": ["runme.py: main", "oneka/oneka.py: oneka"]}
{"id": "C77", "title": "Each run has its own log file", "statement": "Intended: a run appends exactly its own log entries to its own log file, and no other run writes there. This holds for runs in separate processes started in different seconds. In general a log file receives, in order, the entries of all runs, each written once for every time that the current process has opened the file so far; so in one process a second run also writes all its entries into the log file of the first, and if both start in the same second it writes every entry twice.", "quantifier": "all finite sequences of runs in any number of processes, all modules, outcomes and times", "why_tests_cant": "The effect depends on the history of the process (handlers are never detached), not on a single call; histories are unbounded.", "anchors": ["runme.py: main", "oneka/oneka.py: log_the_run", "oneka/capturezone.py: compute_backtrace"]}
{"id": "C78", "title": "All shipped data modules can be run", "statement": "For each of the seven shipped data modules: its constants are accepted, at least seven usable observations are left after buffering, all of them lie above the base, and they do not all lie on one conic; so a run raises only if the coefficients of a realization cannot be drawn, or the archive cannot be opened or written; it runs forever only if one of its traces does; otherwise it returns.", "quantifier": "all seven modules, all random outcomes, all clocks, all numerical backends that meet their contracts", "why_tests_cant": "A run draws random parameters in every realization; that no draw leads to a failure of the fit cannot be seen from finitely many runs.", "anchors": ["data/basic.py", "data/basic_deterministic.py", "data/carlos.py", "data/barnesville.py", "data/long_prairie.py", "data/paynesville.py", "data/perham.py", "runme.py: main", "oneka/oneka.py: oneka", "oneka/model.py: fit_regional_flow"]}
{"id": "C79", "title": "Step sizes are controlled: retries shrink, growth is at most ninefold", "statement": "A trial step that is not accepted is repeated with a step in the same direction at least a tenth shorter; the trial after an accepted step is at most nine times as long as that step. In consequence a complete backtrace over a duration D has n segments with 9^n >= 1 + 80|D|, whatever the velocity and however lenient tol and maxstep are.", "quantifier": "all velocity functions (stateful, possibly failing), starts, durations of either sign, positive tol and maxstep", "why_tests_cant": "the bound holds for every sequence of acceptances and rejections that any velocity function can cause; a test sees the sequences of a few velocity functions", "anchors": ["oneka/capturezone.py: compute_backtrace"]}
{"id": "C80", "title": "Traces follow the exact pathline, and converge to it as maxstep decreases", "statement": "Let X be the exact solution of X' = f(X) from the start, and let the velocity function compute f, Lipschitz with constant L and bounded, near X. If the velocity near X is not too slow relative to maxstep and varies little over one step, the backtrace returns without warning, and its vertex at time t lies within 22 maxstep (exp(L t) - 1) of X(t); the last vertex belongs to the full duration, and consecutive vertices are different and less than maxstep apart. Hence for every eps there is a maxstep below which every vertex is within eps of the exact pathline, for every tol. What the velocity function does away from the pathline has no influence.", "quantifier": "all velocity functions meeting the regularity conditions in a tube around the exact pathline (arbitrary, also failing, outside it), all starts, positive durations, tol and maxstep; all vertices of the trace", "why_tests_cant": "tests can compare with a few pathlines known in closed form; that the error is bounded for every velocity field, with a constant depending on L only, and that it vanishes with maxstep, is a convergence theorem", "anchors": ["oneka/capturezone.py: compute_backtrace"]}
{"id": "C81", "title": "Capture-zone traces lead upstream through the model of their realization", "statement": "Every vertex of every trace of every realization of a returning run is reached from the start circle around the target well (angle 2 pi k / npaths, one metre outside the screen) by a chain of Dormand-Prince steps along a field f such that f times porosity times saturated thickness is the gradient of the discharge potential of that realization's model: up the gradient for a positive duration, down for a negative one. The saturated thickness is the aquifer thickness for confined runs, otherwise the smaller of thickness and head. The steps cover the duration exactly if there was no warning. This holds also when a trace is interrupted by an exception of the velocity function.", "quantifier": "all accepted finite arguments (stochastic and deterministic runs), all random draws in [0,1), all fits, all realizations, traces and vertices, confined or not, durations of either sign, all failure patterns of the velocity evaluations", "why_tests_cant": "the field that is traced is fitted to random draws, so a test can only look at single realizations; that the direction, the porosity factor and the saturated thickness are right at every point that any trace visits, including traces that touch wells or dry places, is a statement about all of them", "anchors": ["oneka/stochastic.py: create_stochastic_capturezone", "oneka/deterministic.py: create_deterministic_capturezone", "oneka/capturezone.py: compute_capturezone, compute_backtrace", "oneka/model.py: Model.compute_velocity, Model.compute_velocity_confined"]}
{"id": "C82", "title": "The library's own traces follow the exact pathlines of its fitted models", "statement": "Let X be the exact pathline upstream through a model (X' = gradient of the discharge potential divided by porosity times saturated thickness). If in a tube around X there are no wells and, unless confined, the head is positive, and the field is Lipschitz (L), bounded and not too slow relative to maxstep there, then tracing with the velocity the library computes returns without warning, and the vertex at time t lies within 22 maxstep (exp(L t) - 1) of X(t), up to the full duration; consecutive vertices are different and less than maxstep apart. The same holds for every trace of every realization of a run that is not interrupted.", "quantifier": "all physical models (any wells and coefficients), confined or not, all starts, pathlines and tubes meeting the conditions, positive durations, tol and maxstep; all realizations and traces of runs", "why_tests_cant": "exact pathlines are known in closed form only for a few symmetric models; the error bound is claimed for all fitted models, and also that the trace returns at all although the velocity is NaN or raises outside the tube", "anchors": ["oneka/capturezone.py: compute_backtrace", "oneka/stochastic.py: create_stochastic_capturezone", "oneka/deterministic.py: create_deterministic_capturezone", "oneka/model.py: Model.compute_velocity, Model.compute_velocity_confined"]}
{"id": "C83", "title": "Random parameters have the stated distributions", "statement": "For a draw uniform on [0,1), generate_random_variate of a pair (min, max) has the uniform distribution function and of a triple (min, mode, max) the triangular distribution function. In a stochastic run every parameter of every realization (each discharge, conductivity, porosity, thickness) is such a variate of its own distribution, taken from a draw of its own.", "quantifier": "all finite pairs and triples with min < max, all thresholds, all runs that return, all realizations and parameters", "why_tests_cant": "a distribution function is a statement about the measure of sets of draws; sampling tests have statistical error and cannot detect reuse of one draw for two parameters or a slightly wrong branch point", "anchors": ["oneka/stochastic.py: generate_random_variate, create_stochastic_capturezone"]}
{"id": "C84", "title": "Selecting the target, and runs that compute nothing", "statement": "In create_stochastic_capturezone and create_deterministic_capturezone a negative target counts from the end of stochastic_wells; a target outside the list raises IndexError and a spacing that is not positive raises RangeError, in both cases before any parameter is drawn, any model built or anything logged. With a valid target and spacing and no realizations (zero or negative number) the stochastic function returns the empty field around the target: total weight 0 and no weight anywhere.", "quantifier": "all arguments, targets (any integer), spacings and numbers of realizations, all random numbers", "why_tests_cant": "the claim that nothing happens before the error holds for every combination of the other arguments, however invalid these are, and wrap-around must agree for every list length", "anchors": ["oneka/stochastic.py: create_stochastic_capturezone", "oneka/deterministic.py: create_deterministic_capturezone", "oneka/probabilityfield.py: ProbabilityField.__init__"]}
{"id": "C85", "title": "Realizations form a reproducible and independent sequence", "statement": "With the same random numbers, the first m realizations of a stochastic run of n >= m are exactly those of the run of m, and each further realization adds at most one to the weight of any place and never removes weight. A run that raises or never returns does so in the same way, with the same log, however many realizations were to follow. Realizations do not influence each other: two runs, of any length, that use the same random numbers in realization i get the same model, the same fit and the same traces for it, whatever happens in the others.", "quantifier": "all arguments, all numbers of realizations m <= n, all environments", "why_tests_cant": "state leaking from one realization to the next (a model, well list or register reused) shows only for particular combinations; the claim covers all environments that agree on one realization and differ arbitrarily elsewhere", "anchors": ["oneka/stochastic.py: create_stochastic_capturezone"]}
{"id": "C86", "title": "Zeros pass the argument checks but cannot be computed with", "statement": "The argument checks admit a standard deviation, conductivity, thickness or porosity of zero, but no such call gives a usable result. A retained observation with standard deviation zero, or a zero conductivity or thickness, makes the call fail with a LinAlgError; a zero standard deviation among duplicates makes it fail with a ZeroDivisionError. With zero porosity a confined call never ends unless it is interrupted, and no trace of any call with zero porosity ever makes a step. Fitting a model directly, an observation exactly at a well fails in the same way, and a model without wells fails with a ZeroDivisionError instead; the model is unchanged in all these cases.", "quantifier": "all accepted finite arguments with such a zero, all observation lists and wells, all random outcomes; lstsq is assumed to reject inf and NaN", "why_tests_cant": "the division by zero happens inside numpy arrays and is silent; whether it ends in an exception, an endless loop or a wrong number has to be followed through the arithmetic of inf and NaN for all other arguments", "anchors": ["oneka/oneka.py: oneka", "oneka/model.py: construct_fit, compute_fit, fit_regional_flow, compute_velocity, compute_velocity_confined", "oneka/capturezone.py: compute_backtrace", "oneka/utilities.py: filter_obs"]}
{"id": "C87", "title": "Weights stay within bounds in floating-point arithmetic", "statement": "Computed with floating-point numbers, after any history of calls on a ProbabilityField with weights that are not negative: pgrid and rgrid have nrows rows and ncols columns (at least three each), no entry of pgrid is negative or exceeds total_weight, and the normalised entries pgrid/total_weight are in [0, 1] after rounding. total_weight never decreases. The only exceptions are those a caller provokes: expand with reversed limits, insert, register or reset before there is a grid, rasterize with an empty list or fewer y than x; no index ever falls outside an array.", "quantifier": "all constructor arguments, all finite histories of calls with any floating-point arguments (weights >= 0), all nodes", "why_tests_cant": "rounding errors accumulate differently in every entry and in the total; that no entry can ever overtake the total, even by one digit, needs the monotonicity of rounding for all sequences of weights", "anchors": ["oneka/probabilityfield.py: ProbabilityField.__init__, expand, insert, rasterize, register, reset", "oneka/visualize.py: create_probability_plot, create_deterministic_plot, create_impact_plot"]}
{"id": "C88", "title": "Growing the grid in floating-point arithmetic", "statement": "Computed with floating-point numbers, if expand returns on a field with a grid then the box lies strictly inside the new grid, total_weight is unchanged, the old entries keep their places relative to each other and everything around them is zero. Every history of calls returns if the spacings exceed 16 rounding units of the coordinates. If the spacing is lost in the digits of the origin (xo - deltax == xo), the constructor accepts it, but expand never returns for a box that reaches the origin, nor does rasterize for a track through the origin; and the first box shown to a field without origin ends up on the edge of the grid.", "quantifier": "all constructor arguments, all histories of calls with any floating-point arguments; all bounds on the coordinates", "why_tests_cant": "whether a loop that subtracts the spacing ends depends on the digits of all coordinates met before; termination has to be shown for every grid that a history can produce", "anchors": ["oneka/probabilityfield.py: ProbabilityField.__init__, expand, rasterize"]}
{"id": "C89", "title": "The probability field computed with floating-point numbers agrees with the exact one", "statement": "Let the coordinates of a history of tracks, boxes, register and reset have few enough digits that one spacing is represented exactly (for instance every origin from 2^(e-1) to 2^e less one spacing, with all coordinates in that range and a spacing that is a multiple of 2^m, m >= e - 52). Computed with floating-point numbers, the history returns; the nodes are exactly the lattice positions at most one spacing outside the positions shown; the weight of each is at least that of the tracks passing within the umbra less eta and at most that of those within the umbra plus eta, where umbra*eta is 2000 rounding units of the squared length of the longest segment, up to one rounding per register. Weights that are multiples of a power of two with a sum of 53 digits (such as the weights 1.0 that the library registers) are added without any rounding. So wherever no track passes at a distance of the umbra give or take eta, the computed weight is exactly the one computed with real numbers by the same calls.", "quantifier": "all origins and spacings that fit, all histories within reach, all lattice positions", "why_tests_cant": "a node is lost or gained only when rounding in the distance formula or in the index window tips a comparison; no finite set of tracks excludes this for all segments, positions and grids", "anchors": ["oneka/probabilityfield.py: ProbabilityField.__init__, expand, insert, rasterize, register, reset, distancesquared"]}
{"id": "C90", "title": "A trace covers its duration in floating-point arithmetic", "statement": "Computed with floating-point numbers, a backtrace with positive duration, tol and maxstep consists of positive time steps, one per vertex after the first. The time that the tracer keeps passes the duration by at most one unit in the last place. If there is no warning the time has reached the duration; if there is, the time reported is the time kept, and it is before the duration. The exact sum of the steps differs from the time kept by at most 2^-52 durations per step.", "quantifier": "all velocity programs (raising at any evaluation), all floating-point starting points, durations, tolerances and step limits > 0, all C libraries whose power function keeps positive numbers positive", "why_tests_cant": "t + dt and duration - t are rounded at every step; that the rounded clock can neither stop short of nor overshoot the duration has to hold for all sequences of steps the controller can choose", "anchors": ["oneka/capturezone.py: compute_backtrace"]}
{"id": "C91", "title": "Traces computed with floating-point numbers follow the exact pathline", "statement": "Let the velocity be Lipschitz and bounded near the exact pathline, and let the program answer it up to an error nu. Computed with floating-point numbers, the vertices of a backtrace are visited at increasing times, and the vertex at time t is within 22 m (exp(L t) - 1) + (N eta + 2 t mu) exp(L t) of the exact pathline, with m the step limit plus the roundings in a step, eta the rounding error of a position and mu that of a velocity, N the number of steps; the last vertex is that of the duration up to (N+1) 2^-52 durations. If the velocity near the pathline is not too slow for the step limit and the magnitudes are not too far apart, the backtrace returns, without warning, after boundedly many steps, and has this accuracy, whatever the program does elsewhere.", "quantifier": "all velocity fields, programs, pathlines and floating-point arguments that meet the conditions; all C libraries whose power function is accurate to a thousandth", "why_tests_cant": "rounding enters at every operation of every stage and changes the steps that are chosen; the bound has to hold for all fields and all resulting sequences of steps", "anchors": ["oneka/capturezone.py: compute_backtrace"]}
{"id": "C92", "title": "Backtraces end in floating-point arithmetic", "statement": "Computed with floating-point numbers, a backtrace through velocities bounded by M returns, after at most 9 + 40 D + 16 M D / tol + 288 M D / maxstep accepted steps for a duration D, provided D <= 2^40, tol and maxstep are at least 2^-50, M D <= 2^37 tol, M D <= 2^37 maxstep, and the start is within 2^47 maxstep of the origin. This holds for every program that answers the velocities, however discontinuous or inconsistent its answers are.", "quantifier": "all velocity programs with bounded answers (raising at any evaluation), all floating-point arguments within those magnitudes, all C libraries whose power function is accurate to a thousandth", "why_tests_cant": "termination for all programs; with rounding a step may leave the time or the position unchanged, and the magnitudes for which this cannot happen have to be established for all states of the loop", "anchors": ["oneka/capturezone.py: compute_backtrace"]}
{"id": "C93", "title": "Potentials, heads, discharges and velocities are accurate in floating-point arithmetic", "statement": "Computed with floating-point numbers, off the wells, compute_discharge and compute_potential of a model with n wells differ from their exact values by at most (18 + 2n) 2^-53 and (19 + 2n) 2^-53 times the sum of the absolute values of the terms they add up. Where the potential is positive and not drowned in the rounding of its terms, compute_head answers the exact head up to a relative error of (2 (19 + 2n) k + 20) 2^-53, k being the size of the terms of the potential relative to the potential, also next to the transition between confined and unconfined flow; and the velocity that is traced is the exact upstream direction up to (100 + 7n) 2^-53 k (k = 1 if treated as confined) times the velocity that the size of the terms of the discharge corresponds to.", "quantifier": "all models with floating-point parameters (positive conductivity, porosity, thickness; any number of wells), all floating-point locations off the wells, confined or not; all C libraries whose logarithm is accurate to a unit in the last place", "why_tests_cant": "an error bound for all parameters, numbers of wells and locations; cancellation, and rounding that decides between the two formulae for the head, occur at particular inputs only", "anchors": ["oneka/model.py: compute_potential, compute_potential_wells_only, compute_discharge, compute_head, compute_velocity, compute_velocity_confined", "oneka/stochastic.py: feval", "oneka/deterministic.py: feval"]}
{"id": "C94", "title": "Traces of the library's models follow the exact pathlines in floating-point arithmetic", "statement": "Let X be the exact pathline upstream from the start through a model with floating-point parameters, in a tube around which there are no wells, there is a saturated thickness, and the velocity error of C93 is at most nu. Under the conditions of C91 on the tube, the step limit and the magnitudes, a backtrace along the velocities that the library computes, with every operation rounded, returns without warning, and the vertex at time t is within 22 m (exp(L t) - 1) + (N eta + 2 t mu) exp(L t) of X(t); the last vertex is that of the duration up to (N+1) 2^-52 durations.", "quantifier": "all models with floating-point parameters, confined or not, all pathlines and floating-point arguments that meet the conditions; all C libraries whose logarithm is accurate to a unit in the last place and whose power function to a thousandth", "why_tests_cant": "a bound on the combined effect of rounding in the velocities and in the integration, for all models and all sequences of steps", "anchors": ["oneka/capturezone.py: compute_backtrace", "oneka/model.py: compute_velocity, compute_velocity_confined", "oneka/stochastic.py: feval"]}
{"id": "C95", "title": "The archived capture probabilities are those of the exact pathlines, up to a stated precision", "statement": "Let the conditions of C82 hold around the exact pathlines of the realizations of a call that is not interrupted, with precision delta = 3/2 (22 maxstep (exp(L D) - 1) + M H), where L is the Lipschitz constant and M the bound of the upstream velocity near the pathlines, D the duration and H the longest time step. Then each realization captures every place that one of its exact pathlines passes within umbra - delta, and every place it captures is passed by one of them within umbra + delta. Consequently the archived weight of a node lies between the number of realizations with an exact pathline passing within umbra - delta and the number of those with one passing within umbra + delta (for the nodes around the target, and everywhere if umbra <= spacing).", "quantifier": "all calls of oneka that return, with finite positive duration and tol, maxstep above machine-epsilon scale; all random draws; all exact pathlines meeting the conditions; all lattice positions", "why_tests_cant": "The exact pathlines of a fitted model with wells have no closed form, so a test has nothing to compare with; the claim is an error bound for every model and every draw, through tracing, rasterizing and counting", "anchors": ["oneka/oneka.py: oneka", "oneka/capturezone.py: compute_capturezone, compute_backtrace", "oneka/probabilityfield.py: ProbabilityField.rasterize, ProbabilityField.register", "oneka/stochastic.py: create_stochastic_capturezone"]}
{"id": "C96", "title": "What the archived capture frequencies estimate, and how accurately", "statement": "Let the random numbers that the realizations consume be independent from realization to realization, with one law (nothing else is assumed about the law), and let p be the probability that one realization has a trace passing within the umbra of a node. Then: a run of n realizations returns with probability r^n, r being the probability that one realization can be carried out; the weight of the node in the returned field has a binomial law; the capture frequency (weight over total) converges to p almost surely as n grows; and the probability that a call of oneka returns having archived a frequency that differs from p by epsilon or more is at most 2 exp(-2 n epsilon^2). For the nodes around the target, and for all nodes if umbra <= spacing.", "quantifier": "all arguments, all laws of the random numbers, all measurable generators of the coefficients, all linear-algebra routines meeting the contract, all numbers of realizations, all lattice positions, all epsilon", "why_tests_cant": "A statement about the law of the random numbers; a test sees single runs, and no test can tell a slightly biased frequency from an unlucky one", "anchors": ["oneka/oneka.py: oneka", "oneka/stochastic.py: create_stochastic_capturezone", "oneka/probabilityfield.py: ProbabilityField.rasterize, ProbabilityField.register", "oneka/capturezone.py: compute_capturezone"]}
{"id": "C97", "title": "The law of the flow in a realization", "statement": "Given the drawn parameters of a realization (conductivity, porosity, thickness, pumping rates), and a multivariate normal generator that multiplies independent standard normal numbers by a factor of the covariance matrix and adds the mean: the six coefficients of the realization are jointly normal, with mean and covariance those that fit_regional_flow returned; at every point the potential and the two components of the discharge are normally distributed about those of the fitted model, with variance phi' cov phi. If the parameters are not random, the averages of the coefficients over the realizations of a run converge almost surely to the fitted coefficients.", "quantifier": "all arguments with usable observations for which the fit succeeds, all drawn parameters, all factors of the covariance matrix, all points", "why_tests_cant": "A statement about a law (of infinitely many possible draws) and about every point of the plane; a test can only look at sample moments of one run", "anchors": ["oneka/stochastic.py: create_stochastic_capturezone", "oneka/model.py: Model.fit_regional_flow, Model.compute_potential, Model.compute_discharge"]}
{"id": "C98", "title": "The log accounts for every observation", "statement": "The log of filter_obs names as removed exactly the observations within the buffer of a well, each with a well that is that near; when it returns, the log lists each group of duplicates with the average that replaces it, then the number of active observations and each of them, so that every given observation appears as removed, as a duplicate or as active, and the active ones are those returned. When it raises, nothing is reported as active and the log ends at the observation with standard deviation 0 that made it raise. In a call that returns, the reported active observations are those in the summary table and on the figure.", "quantifier": "all observation lists, wells and buffers; all calls that return", "why_tests_cant": "the arrangements of duplicates, wells and observations are unbounded, and so are the ways in which a log can omit or misreport one of them", "anchors": ["oneka/utilities.py: filter_obs", "oneka/oneka.py: oneka"]}
{"id": "C99", "title": "The summary table shows the statistics", "statement": "The text made by summary_statistics is a table of eleven equally wide lines: title, names, and rows for count, minimum, median, maximum, average and standard deviation; the characters below each name read as the statistics of that column, to half a unit of the last printed digit, provided the numbers, names and title fit in their columns. Too few names or formats raise IndexError; numbers that are too wide make their row longer than the others. The table in the log of a call shows the statistics of the retained observations to two decimals.", "quantifier": "all tables, names, titles and formats w.kf and w.ke; all calls that return", "why_tests_cant": "tables, formats and numbers (rounding carries, signs, exponents) are unbounded, and misalignment occurs only for particular widths", "anchors": ["oneka/utilities.py: summary_statistics", "oneka/oneka.py: oneka"]}
{"id": "C100", "title": "The log shows the numbers of the run", "statement": "The messages in the log read as the numbers of the run: the scalar arguments (integers exactly, others to two decimals), for each realization its number, base, conductivity, porosity, thickness (two decimals), recharge and coefficients (five significant digits) and a warning with the end time of each trace that stopped early; the decile table and the capture zone area in square metres and acres. Numbers below 0.005 are logged as 0.00.", "quantifier": "all calls, realizations, traces and decile lines, however the call ends", "why_tests_cant": "a test compares a few printed numbers; rounding, signs, carries and the pairing of values with labels range over all numbers", "anchors": ["oneka/oneka.py: oneka, log_the_run", "oneka/stochastic.py: create_stochastic_capturezone", "oneka/deterministic.py: create_deterministic_capturezone", "oneka/capturezone.py: compute_backtrace"]}
{"id": "C101", "title": "What the log says about calls that fail or never return", "statement": "However a call with accepted, finite arguments ends, the realizations recorded in its log are the first ones, in their order, each with the parameters of its own draws, its own fit and its recharge, and at most as many as were asked for. All of them have been traced completely, except for the last one if the call never returns: that is the realization that hangs, its parameters are in the log, the traces before the hanging one have been completed, and the next one never ends. So the log of a hanging call is not silent about the realization that hangs. A call that raises after all realizations have been logged could not write its archive; a deterministic call that raises otherwise has logged no realization.", "quantifier": "for all accepted finite arguments, all observations that can be filtered, all random draws, linear algebra routines, interrupts and archive failures, and all ways to end", "why_tests_cant": "A test cannot observe that a call never returns, nor enumerate the ways in which a run of arbitrary length can stop.", "anchors": ["oneka/stochastic.py:create_stochastic_capturezone", "oneka/deterministic.py:create_deterministic_capturezone", "oneka/capturezone.py:compute_capturezone", "oneka/oneka.py:oneka"]}
{"id": "C102", "title": "The impact curve in floating-point arithmetic", "statement": "Computed with floating-point numbers, for a field filled by registrations of weight 1.0: all entries and the total weight are whole numbers; create_impact_plot returns the frequency of every node, rounded to the nearest floating-point number and in [0, 1], in the order of the exact frequencies from the largest to the smallest, with (k+1) times the cell area beside the k-th; up to 2^52 registrations different frequencies stay different, only 0 becomes 0 and only 1 becomes 1, and the range of points drawn is the one that exact frequencies give.", "quantifier": "all constructions of a ProbabilityField and all histories of calls (exceptions caught) with weights 1.0, any coordinates, all nodes, all spacings", "why_tests_cant": "fields of any size with any number of realizations; whether two frequencies collide after rounding depends on all pairs of numerators and denominators", "anchors": ["oneka/visualize.py: create_impact_plot", "oneka/probabilityfield.py: register"]}
{"id": "C103", "title": "Rounding does not change the decile table", "statement": "Computed with floating-point numbers, each of the 19 lines of the decile table shows the largest frequency that does not exceed the level 0.05*(k+1), rounded, and the area of the nodes above that level (plus one cell, C54), as in exact arithmetic.", "quantifier": "all fields filled by up to 2^47 registrations of weight 1.0, all lines", "why_tests_cant": "the thresholds of np.linspace(0.05, 0.95, 19) are off by one unit in the last place in five lines, which shows only for frequencies that equal the level exactly", "anchors": ["oneka/oneka.py: oneka (decile table)", "oneka/visualize.py: create_impact_plot"]}
{"id": "C104", "title": "The impact plot shows the areas in acres", "statement": "Every point that create_impact_plot draws has as ordinate the area, in acres, of the nodes that are at least as probable (ties broken one cell at a time), to within one acre, and shows on the logarithmic axis; from left to right the ordinates never increase.", "quantifier": "all reachable fields with positive total weight, all positive spacings; all calls that return", "why_tests_cant": "the ordinates are floor divisions (area//4046.86), and which of them become 0 depends on the number of nodes of every probability and on the spacing", "anchors": ["oneka/visualize.py: create_impact_plot", "oneka/oneka.py: oneka"]}
{"id": "C105", "title": "Rounding does not change the capture zones, up to a stated distance", "statement": "Computed with floating-point numbers from the starting points to the weights of the field, a stochastic capture zone returns, its total weight is the number of realizations, and the weight of a node is the number of realizations whose exact pathlines pass within the umbra of it, where distances that differ from the umbra by at most a stated precision may count either way. The traces start at equal angles on the circle one metre outside the well, up to rounding.", "quantifier": "all models, targets, spacings, umbras, tolerances, numbers of traces and realizations for which the pathlines stay clear of wells and the magnitudes are moderate (C91, C94, C89); all C libraries that are accurate", "why_tests_cant": "rounding errors are fed back through the adaptive step control and every intersection test, for infinitely many models and geometries; there is no reference value for a node near the edge of the zone", "anchors": ["oneka/capturezone.py: compute_capturezone, compute_backtrace", "oneka/probabilityfield.py: ProbabilityField", "oneka/oneka.py: oneka", "oneka/model.py: Model"]}
{"id": "C106", "title": "The fit is an unbiased estimate of the flow with the stated covariance, and the best linear one", "statement": "If the water levels are measured with uncorrelated errors of mean zero and the stated standard deviations, then the coefficients that fit_regional_flow returns are on average those of the true flow, the covariance matrix it returns is the covariance matrix of these coefficients, and no unbiased linear function of the levels estimates a linear function of the coefficients with a smaller variance. (True while all measured levels are confined; for unconfined levels the fitted potential at each of six sites is on average too large by conductivity times the squared standard deviation.)", "quantifier": "all probability distributions of the levels with these moments, all flows, wells and site layouts not on one conic, any number of sites, all competing linear estimates", "why_tests_cant": "expectations and covariances over all error distributions, and a comparison with all linear estimates; a simulation sees one distribution and blurs a small bias", "anchors": ["oneka/model.py: fit_regional_flow, construct_fit, compute_fit"]}
{"id": "C107", "title": "Raising a measured level raises the fitted potential there", "statement": "If one observed water level is raised and all others stay the same, fit_regional_flow gives a larger potential at that place. (True among confined levels; at the thickness of the aquifer a level raised from just below to the thickness lowers the fitted potential.)", "quantifier": "all site layouts not on one conic, all levels, all sites, all increases", "why_tests_cant": "a monotonicity over all layouts and levels; the counterexamples sit in a thin band below the thickness whose width depends on the standard deviation", "anchors": ["oneka/model.py: fit_regional_flow, construct_fit, compute_fit"]}
{"id": "C108", "title": "Random parameters stay in their range in floating-point arithmetic", "statement": "generate_random_variate returns a number between the smallest and the largest value of the distribution, close to the value that the same random number gives in exact arithmetic; compute_variate_mean returns a number in the same range, close to the exact mean. (True for scalars and pairs. For triples the value and the mean are close to the exact ones and never have a sign that the distribution does not have, and a positive distribution gives positive values unless its largest value exceeds 2^47 times its smallest; but rounding can put both outside the range, and 0 can be drawn from a distribution on [2^-60, 1.25].)", "quantifier": "all ascending distributions of floating-point numbers, all random numbers that the generator can return", "why_tests_cant": "the claim is about every rounding of every distribution; the exceptions occur for a few random numbers in 2^53", "anchors": ["oneka/stochastic.py: generate_random_variate, compute_variate_mean"]}
{"id": "C109", "title": "filter_obs decides and averages correctly in floating-point arithmetic", "statement": "Computed with floating-point numbers, filter_obs returns the observations of the exact computation: as many, at the same places, with heads within (5 N + 14) 2^-53 of the largest head and standard deviations within this relative error, for N observations; and it raises exactly when the exact computation does. The condition is that no distance that is compared with the buffer or with 1 lies within a relative 2^-51 of that limit. Whatever the distances, returned observations are farther than the buffer from every well and consecutive ones at least 1 apart, and every given observation outside the buffers has a returned one within distance 1, all up to a relative error of 2^-51.", "quantifier": "all lists of up to 2^40 observations, all wells and buffers, all libraries whose hypot and squares are off by at most one unit in the last place", "why_tests_cant": "a test sees some numbers; whether a rounded distance changes a decision, and how far averages drift, is a statement about all of them", "anchors": ["oneka/utilities.py: filter_obs"]}
{"id": "C110", "title": "The covariance matrix tells how far the fitted potential can be off", "statement": "After a successful fit, the potentials at a point of the regional flows whose misfit exceeds the least one by at most eta^2 are exactly those within eta standard deviations of the fitted potential there, the standard deviation being that of the returned covariance matrix. So a least-squares solver that comes within eta^2 of the least misfit gives everywhere a potential within eta standard deviations of the exact one. At an observation this standard deviation is at most that of the measured potential. If the measured levels change by s standard deviations (root of the sum of squares), the fitted potential changes everywhere by at most s of its own standard deviations, and at the sites altogether by at most s standard deviations of the measurements; one changed level changes the fitted potential at its place by at most as much as the measured potential.", "quantifier": "all models, all usable observations, all linear-algebra packages, all points, all changes of levels", "why_tests_cant": "a test perturbs some levels; that no perturbation and no other flow does worse is a statement about all of them", "anchors": ["oneka/model.py: OnekaModel.fit_regional_flow, construct_fit, compute_fit"]}
{"id": "C111", "title": "Rounding disturbs the fit little, outside a narrow band of levels", "statement": "In floating-point arithmetic fit_regional_flow raises a RangeError for an observation at or below the base exactly as in exact arithmetic. Unless a head is just below the thickness of the aquifer (by half a unit in the last place; there it can count as confined and be off by any number of standard deviations), the regressors of the weighted system have a relative error of at most 16 * 2^-53 and its right-hand sides an error of at most (44 + 3n) * 2^-53 of the numbers they are computed from, with n wells. If the least-squares solver comes within eta^2 of the least sum of squares of the system it is given, the fitted potential differs everywhere from that of the exact fit by at most 8/7 eta standard deviations plus 2^-53 times: 48 kappa times the root of the misfit, plus 132 + 9n times the size of the terms that make up the residuals. Here kappa says how well the observations determine the flow; the covariance matrix gives a bound for it.", "quantifier": "all models with floating-point parameters, all usable observations, all least-squares solvers, all libraries with an accurate logarithm and square, all points", "why_tests_cant": "a test compares one fit with a reference; a bound for all observations, and the band of levels where there is none, cannot be sampled", "anchors": ["oneka/model.py: OnekaModel.fit_regional_flow, construct_fit, compute_fit"]}
{"id": "C112", "title": "What misfit and rounding of the fit mean for discharge, velocity, pathlines and traces", "statement": "The values that a component of the discharge vector (in any direction, at any point) takes among the flows whose misfit exceeds the least one by at most eta^2 are exactly those within eta standard deviations, according to the returned covariance matrix, of the value for the fitted flow. Where eta standard deviations of the potential are at most a fraction epsilon <= 1/2 of it, such a flow is saturated wherever the fitted one is, and its velocity differs by at most (eta standard deviations of the discharge + epsilon times the discharge) / ((1 - epsilon) * porosity * saturated thickness); its pathlines leave those of the fitted flow at most by (initial distance + nu t) exp(L t), if nu bounds that difference and L is a Lipschitz constant of the velocity in a tube around the pathline. If the fit and the trace are both computed in floating-point arithmetic, the trace through the computed fit follows the pathline of the exact fit, within the bound of C91 with the errors of the velocity and of the fit added up.", "quantifier": "all models, usable observations, flows, points and directions; all solvers and libraries that meet their contracts; all pathlines in a tube without wells", "why_tests_cant": "a test compares two fits or two traces; an exact range over all flows that fit almost as well, and a bound on all traces, cannot be sampled", "anchors": ["oneka/model.py: OnekaModel.fit_regional_flow, compute_discharge, compute_velocity, compute_velocity_confined", "oneka/capturezone.py: compute_backtrace"]}
{"id": "C113", "title": "Whole runs in floating-point arithmetic", "statement": "A stochastic run in floating-point arithmetic returns a field exactly if every realization has a model - parameters sampled from the distributions in the documented order, coefficients drawn from the normal distribution of the fit at the target - and tracing these models returns it. If the traces of every model follow exact pathlines up to delta, the total weight is the number of realizations, and the weight of a node lies between the number of realizations with an exact pathline within the umbra less eta + delta and the number of those with one within the umbra plus eta + delta. In a deterministic run everything from the means of the distributions through the fit to the traces is rounded: if the errors of the velocity and of the fit are small along the exact pathlines of the exact fit, the field has total weight 1, with weight 1 at the nodes that such a pathline passes within the umbra less eta + delta, and weight 0 at the nodes that none passes within the umbra plus eta + delta.", "quantifier": "all targets (from the front or the back), distributions, observations, draws, numbers of realizations and paths, solvers and libraries that meet their contracts, and all nodes around the target (all nodes if the umbra does not exceed the spacing)", "why_tests_cant": "a run in floating-point arithmetic can only be compared with other runs; that every node agrees with the exact pathlines of the exact fit, for all inputs, is not observable", "anchors": ["oneka/deterministic.py: create_deterministic_capturezone", "oneka/stochastic.py: create_stochastic_capturezone, generate_random_variate, compute_variate_mean", "oneka/model.py: Model.fit_regional_flow", "oneka/capturezone.py: compute_capturezone"]}
{"id": "C114", "title": "Accuracy of the covariance matrix in floating-point arithmetic", "statement": "Every entry of the covariance matrix that fit_regional_flow returns in floating-point arithmetic differs from that of the exact fit by at most rho / (1 - rho) times the product of the two standard deviations, where rho is the square of kappa (which says how well the observations determine the flow) times the relative rounding errors of the rows, of matmul and of inv. So the variances have the relative error rho / (1 - rho), the correlations are off by at most 2 rho / (1 - 2 rho), and the variance of the potential at any point by at most rho / (1 - rho) times its standard deviation and the terms it is computed from. If rho < 1 and the observations are not on one conic, inv does not raise and the fit returns.", "quantifier": "all aquifers, wells, observations away from the critical level, targets, points, and all linear-algebra packages that meet their accuracy contracts", "why_tests_cant": "the exact inverse is not available to a test, and a comparison with another numerical inverse says nothing about observations that were not tried", "anchors": ["oneka/model.py: Model.fit_regional_flow, Model.construct_fit, Model.compute_fit"]}
{"id": "C115", "title": "The project's own tests", "statement": "In exact arithmetic every assertion of tests/test_model.py and tests/test_probabilityfield.py holds: potential, head, discharge and velocity of the test model, the coefficients and covariances of the fit to the 25 test observations (for every linear-algebra package that meets its contract, and the fit does return), the constructor, expand and distancesquared. The expected values come from the author's earlier MatLab code.", "quantifier": "all linear-algebra packages that meet their contracts; the data are those of the tests", "why_tests_cant": "running the tests shows that one installation passes; that the expected values do not depend on the package or on rounding needs the exact inverse of the normal matrix and bounds for the logarithms", "anchors": ["tests/test_model.py", "tests/test_probabilityfield.py", "oneka/model.py: Model", "oneka/probabilityfield.py: ProbabilityField"]}
{"id": "C116", "title": "The aquifer functions neither overflow nor underflow", "statement": "If the parameters of a model and the coordinates of a point are zero or between 2^-40 and 2^40 in size (about 10^-12 and 10^12), the aquifer properties are positive, there are at most 2^40 wells and the point is off the wells, then compute_potential, compute_discharge, compute_head, compute_velocity and compute_velocity_confined in binary64 arithmetic (with its overflow, underflow, infinities and NaN) answer finite numbers, the very numbers that arithmetic with unlimited exponents answers, and raise in the same cases. So potentials, discharges and heads have the accuracy of C93. Without the condition on the point this is false: far away the potential overflows, and next to a well, but not on it, the discharge can be infinite.", "quantifier": "all models and points of these sizes, all C libraries whose logarithm is accurate", "why_tests_cant": "an overflow needs a combination of extreme parameters; the claim is about all combinations in a box of some dozen dimensions", "anchors": ["oneka/model.py: Model.compute_potential, compute_potential_wells_only, compute_discharge, compute_head, compute_velocity, compute_velocity_confined"]}
{"id": "C117", "title": "The probability field neither overflows nor underflows", "statement": "If spacings, origin, and the arguments of all calls are zero or between 2^-40 and 2^40 in size, then in binary64 arithmetic any history of calls on a ProbabilityField does what it does in arithmetic with unlimited exponents: it returns in the same cases, every call raises the same exceptions, and all corners, weights and marks are finite and the same numbers. The number of calls and of registered tracks is not limited (sums of weights stop growing long before they overflow). So C87 to C89 hold in binary64; with weights that are not negative all entries are finite and between 0 and the total weight. With weights of any size this is false: two weights of 2^1023 make the total infinite.", "quantifier": "all spacings, origins and histories of calls with arguments of these sizes", "why_tests_cant": "histories are unbounded, and overflow after many calls is out of reach of tests", "anchors": ["oneka/probabilityfield.py: ProbabilityField.__init__, expand, insert, rasterize, register, reset, distancesquared"]}
{"id": "C118", "title": "Backtraces neither overflow nor underflow", "statement": "Consider a backtrace through a model whose parameters have ordinary sizes (zero or between 2^-40 and 2^40), with a duration, a tolerance and a step limit of ordinary sizes, and magnitudes that do not stall it (as in C92). If it asks for velocities only at points with ordinary coordinates, off the wells, where velocities are at most 2^40, and gets them without exception, then in binary64 arithmetic (velocities, stages, error estimates, step control, time) it returns the same vertices after the same steps, without warning. So under the conditions of C94, in a tube that stays clear of the coordinate axes, a trace in binary64 arithmetic follows the exact pathline upstream.", "quantifier": "all models, regions, starting points, durations, tolerances and step limits of these sizes", "why_tests_cant": "the number of steps is unbounded, and step sizes depend on quotients that could underflow or overflow", "anchors": ["oneka/capturezone.py: compute_backtrace, compute_capturezone", "oneka/model.py: compute_velocity, compute_velocity_confined"]}
{"id": "C119", "title": "Capture zones neither overflow nor underflow", "statement": "Consider create_stochastic_capturezone (given the models of its realizations) or create_deterministic_capturezone (given its model), with a target, umbra, spacing, duration, tolerance and step limit of ordinary sizes (zero or between 2^-40 and 2^40), models with parameters of ordinary sizes, and traces that stay where coordinates are ordinary. In binary64 arithmetic the whole computation - starting angles and points, traces with their velocities, the growing field and its weights - does the same as with unlimited exponents: it never returns, or raises the same exception, or returns a field with the same finite numbers. So if the traces follow exact pathlines up to delta (conditions of C105) in tubes with ordinary coordinates, the call returns, the total weight is the number of models, and the weight of a node is at least the number of models with an exact pathline within the umbra less eta + delta, and at most the number with one within the umbra plus eta + delta.", "quantifier": "for all targets, radii, durations, umbras, spacings, tolerances and step limits of ordinary sizes, all numbers of paths up to 2^40, all lists of models with ordinary parameters, both velocity functions, all libraries with accurate log, fifth root, cosine, sine and pi", "why_tests_cant": "A capture zone is made of millions of floating-point operations on intermediate results nobody sees; a test shows that nothing overflowed for its data. Only a proof that bounds every intermediate result covers all models and targets.", "anchors": ["oneka/capturezone.py:compute_capturezone", "oneka/capturezone.py:compute_backtrace", "oneka/stochastic.py:create_stochastic_capturezone", "oneka/deterministic.py:create_deterministic_capturezone"]}
{"id": "C120", "title": "The log identifies the call", "statement": "The log of an accepted call of oneka() records the arguments faithfully. If the logs of two accepted calls agree as far as the list of observations, then both calls had equal project names, run times, distributions (conductivity, porosity, thickness), lists of wells, lists of observations, smoothing and confined switch; the same target, number of paths and number of realizations; and durations, bases, buffers, spacings, umbras, tolerances and step limits that differ by at most 0.01 (or are the same infinity). In particular two objects built from None, booleans, integers, floats, tuples and lists are printed alike only if they are equal, in value and in type.", "quantifier": "for all accepted arguments whose floats are binary64 numbers, all courses of the run after the arguments have been logged, all ways of printing a float that Python's contract for repr allows (different floats differ; only digits, point, signs and e; a point or an e in every float)", "why_tests_cant": "The claim compares all pairs of calls and all nestings of tuples and lists; a test compares a few. An ambiguity of the printed form (where one number ends and the next begins, 1 and 1.0, a pair and a tuple with one pair) can hide in any pair that was not tried.", "anchors": ["oneka/oneka.py:log_the_run", "oneka/oneka.py:oneka"]}
{"id": "C121", "title": "What the printed forms of Model and ProbabilityField tell", "statement": "repr and str of a Model show base, conductivity, porosity and thickness and nothing else: two models are printed alike if and only if these four are equal, whatever their wells, origin and coefficients. The text looks like a call of the constructor, but the constructor called with the arguments in it raises TypeError. The repr of an empty ProbabilityField is a call of the constructor that gives back an equal field; the repr of a field with data shows spacings, shape, extent and total weight and nothing else (not the probabilities), and the constructor called with the arguments in it raises TypeError. The str of an empty field is a call of the constructor too, but of one that gives a field with nine nodes around the origin.", "quantifier": "for all models with numbers as parameters, all fields with binary64 attributes, all readings of the text as a call, all ways of printing a float that Python's contract for repr allows", "why_tests_cant": "That a text determines the four numbers is a claim about all pairs of models; that no reading of the text is a valid call quantifies over all argument lists.", "anchors": ["oneka/model.py:Model.__repr__", "oneka/model.py:Model.__str__", "oneka/model.py:Model.__init__", "oneka/probabilityfield.py:ProbabilityField.__repr__", "oneka/probabilityfield.py:ProbabilityField.__str__", "oneka/probabilityfield.py:ProbabilityField.__init__"]}
{"id": "C122", "title": "The results do not depend on the origin of the coordinates", "statement": "If all wells and observations are moved by the same vector, the results move with them and nothing else changes. A model moved by s has at moved points the same potential, discharge, head and velocity; fit_regional_flow to moved observations gives the same coefficients; traces and capture zones are the moved ones; filter_obs keeps the moved observations. Two calls of oneka() that differ by such a move end in the same way (same exception, or both return, or both run forever), log the same areas, the same decile table and the moved statistics, filtering messages and realizations, show the moved figures, and archive the same field with the moved origin. So a user may subtract a reference point from large map coordinates.", "quantifier": "for all vectors, all accepted arguments with finite numbers, all draws, linear algebra routines and interrupts (the same in both calls), in exact arithmetic", "why_tests_cant": "The claim compares whole runs for all vectors and inputs, with the grid origin, expansion, stepping and fitting all following the move; and binary64 rounding hides the exact statement from any test.", "anchors": ["oneka/oneka.py:oneka", "oneka/stochastic.py:create_stochastic_capturezone", "oneka/deterministic.py:create_deterministic_capturezone", "oneka/capturezone.py:compute_backtrace", "oneka/capturezone.py:compute_capturezone", "oneka/model.py:Model.fit_regional_flow", "oneka/utilities.py:filter_obs", "oneka/utilities.py:summary_statistics", "oneka/probabilityfield.py:ProbabilityField"]}
{"id": "C123", "title": "The results do not depend on the datum of the elevations", "statement": "If the base of the aquifer and all observed heads are larger by the same amount, the capture zones are the same. fit_regional_flow gives the same coefficients; filter_obs keeps the same observations, with averages raised by that amount; of the statistics only minimum, median, maximum and mean of the heads change, by that amount. Two calls of oneka() that differ in this way end in the same way, show the same figures, log the same areas, decile table, fits and traces, and archive the same field.", "quantifier": "for all amounts, all accepted arguments with finite numbers, all draws, linear algebra routines and interrupts (the same in both calls), in exact arithmetic", "why_tests_cant": "The claim compares whole runs for all amounts and inputs. A base that enters one place and not another (the conversion of heads to potentials, the averaging of duplicates) shows only in inputs a test happens to choose.", "anchors": ["oneka/oneka.py:oneka", "oneka/stochastic.py:create_stochastic_capturezone", "oneka/deterministic.py:create_deterministic_capturezone", "oneka/model.py:Model.fit_regional_flow", "oneka/model.py:Model.compute_head", "oneka/utilities.py:filter_obs", "oneka/utilities.py:summary_statistics"]}
{"id": "C124", "title": "The results do not depend on the order of the wells", "statement": "If the wells are listed in another order, and target names the same well, the results are the same. Models that differ in the order of their wells have the same potential, discharge, head and velocity everywhere and the same fit. filter_obs keeps the same observations; its messages may name another one of several wells within the buffer. Two calls of oneka() that differ in this way end in the same way, log the same areas, decile table, statistics, fits and traces, show the same figures but for the order in which wells are drawn, and archive the same field: always in a deterministic run; in a stochastic run if each well gets the same draw, and so, for independent uniform draws, the law of the result is the same.", "quantifier": "for all reorderings, all accepted arguments with finite numbers, all draws in [0, 1), linear algebra routines and interrupts, in exact arithmetic; for the law: all laws of the random numbers that do not distinguish the draws of one realization", "why_tests_cant": "The claim compares whole runs for all lists and permutations; in a stochastic run a seeded test gives different draws to the wells after reordering, so equality holds only in law.", "anchors": ["oneka/oneka.py:oneka", "oneka/stochastic.py:create_stochastic_capturezone", "oneka/deterministic.py:create_deterministic_capturezone", "oneka/model.py:Model.compute_potential", "oneka/model.py:Model.compute_discharge", "oneka/model.py:Model.fit_regional_flow", "oneka/utilities.py:filter_obs", "oneka/visualize.py:create_probability_plot"]}
{"id": "C125", "title": "Only the ratios of conductivity, porosity and discharges matter", "statement": "If the hydraulic conductivity, the porosity and the discharges of all wells are multiplied by the same positive factor, the capture zones are the same. The model has the same heads and velocities, and potentials and discharges multiplied by the factor; the fit is multiplied by the factor, its covariances by its square; random variates and means are multiplied by the factor. Two calls of oneka() that differ in this way end in the same way, show the same figures, log the same areas, decile table, statistics, filtering messages and traces, and archive the same field. So the time scale of the flow cannot be told from conductivities and discharges alone: a user who errs by the same factor in all three gets the same zone.", "quantifier": "for all positive factors, all accepted arguments with finite numbers, all draws and interrupts, exact linear algebra (a minimiser, the inverse, LinAlgError for data that are not finite); in a stochastic run for normal numbers that scale with expected value and covariance, as those of numpy do", "why_tests_cant": "The claim compares whole runs for all factors and inputs, including the fitting, stepping and all exceptions.", "anchors": ["oneka/oneka.py:oneka", "oneka/stochastic.py:create_stochastic_capturezone", "oneka/stochastic.py:generate_random_variate", "oneka/stochastic.py:compute_variate_mean", "oneka/deterministic.py:create_deterministic_capturezone", "oneka/model.py:Model.compute_head", "oneka/model.py:Model.compute_velocity", "oneka/model.py:Model.fit_regional_flow"]}
{"id": "C126", "title": "A whole run neither overflows nor underflows", "statement": "For arguments of ordinary sizes (zero, or between 2^-40 and 2^40) the whole calculation stays in the range of binary64 numbers: filtering and averaging observations, random variates and their means, the weighted system of the fit, deterministic and stochastic runs, the impact curve and the decile table give the same finite numbers as they would with unlimited exponents, or raise the same exception, or both never return. So what is proved of runs with unlimited exponents, such as the frequencies of C113, holds of the code in binary64 arithmetic.", "quantifier": "for all arguments of ordinary sizes, all draws in [0, 1] that are zero or at least 2^-60, any linear algebra and any normal generator that return finite numbers for finite numbers, all realizations whose drawn parameters have ordinary sizes (aquifer properties positive) and whose traces stay in regions with ordinary coordinates; for all libraries with accurate log, square root, hypot, square, cosine and sine", "why_tests_cant": "Tests run some inputs; that no intermediate result for any ordinary input leaves the range needs a bound for every operation.", "anchors": ["oneka/utilities.py:filter_obs", "oneka/stochastic.py:generate_random_variate", "oneka/stochastic.py:compute_variate_mean", "oneka/stochastic.py:create_stochastic_capturezone", "oneka/deterministic.py:create_deterministic_capturezone", "oneka/model.py:Model.fit_regional_flow", "oneka/model.py:Model.construct_fit", "oneka/visualize.py:create_impact_plot", "oneka/oneka.py:oneka"]}
{"id": "C127", "title": "How the umbra, the spacing and the number of paths act on the result", "statement": "With the same random numbers: a larger umbra, a coarser grid and a multiple of the number of paths never lower the weight of a position that is on both lattices, and leave the total weight as it is; if the call with them returns then so does the call without, having drawn the same models and traced a part of the same paths. The umbra and the (positive) spacing have no influence on anything but the grid: with any others the run draws, fits, traces, returns, raises or hangs as before. Where neither spacing is below the umbra, changing the spacing does not change the weight of any position that is on both lattices.", "quantifier": "for all arguments of a deterministic or stochastic run, all larger umbras, all coarser spacings, all multiples of the number of paths, all random numbers, linear algebra and interrupts, all positions on the lattices", "why_tests_cant": "The claim compares two runs for every argument, every pair of umbras and spacings and every position; tests compare some pairs.", "anchors": ["oneka/stochastic.py:create_stochastic_capturezone", "oneka/deterministic.py:create_deterministic_capturezone", "oneka/capturezone.py:compute_capturezone", "oneka/probabilityfield.py:ProbabilityField.rasterize", "oneka/probabilityfield.py:ProbabilityField.expand", "oneka/oneka.py:oneka"]}
{"id": "C128", "title": "Results do not depend on the orientation of the axes", "statement": "If the sign of all y coordinates is reversed, or the x and y coordinates are exchanged throughout (wells and observations), then in exact arithmetic, with the same random numbers (the normal vectors expressed with the new axes), everything comes out as it was, with the new coordinates: heads, potentials, the regional fit with its covariances, which observations are filtered out or merged, the models drawn, the paths with their steps and warnings, exceptions and hangs, the nodes of the grid, the total weight, the weights around the target, and all weights and the reported area if the umbra is not larger than the spacing. For the exchange of the axes the number of paths must be a multiple of four.", "quantifier": "for all models, observations, arguments of runs and of calls that return, both changes of the axes, all random numbers, linear algebra and interrupts, all points including non-finite ones, all velocity functions", "why_tests_cant": "The claim compares two runs at every position for every argument and draw; a sign or an axis mixed up in one term shows only where that term matters, and tests use some wells, coefficients and points.", "anchors": ["oneka/model.py:Model", "oneka/capturezone.py:compute_backtrace", "oneka/capturezone.py:compute_capturezone", "oneka/utilities.py:filter_obs", "oneka/probabilityfield.py:ProbabilityField", "oneka/stochastic.py:create_stochastic_capturezone", "oneka/deterministic.py:create_deterministic_capturezone", "oneka/oneka.py:oneka"]}
{"id": "C129", "title": "Order, duplicates and precision of the observations", "statement": "In exact arithmetic, with the same random numbers: (1) listing the observations in another order changes nothing (fit, runs, reported areas, deciles, summary, archived field, exceptions, hangs), provided that the observations farther than the buffer from the wells are at least 1 apart; if they are closer, the order can matter for what is merged. (2) Replacing duplicates by their weighted mean does not change the fit or the runs if they are exactly at the same place and their levels are above the top of the aquifer; for unconfined levels it can. (3) With c times all standard deviations filter_obs retains the same observations with c times their standard deviations; if the levels are above the top of the aquifer, the fitted expected values are the same, the covariances are c^2 times as large, and the deterministic capture zone is the same.", "quantifier": "for all lists of observations of any length and all their rearrangements, all models, arguments, factors c > 0, wells, buffers, random numbers and linear algebra", "why_tests_cant": "Rearrangements, numbers of duplicates and factors are unlimited; a test compares some lists, for which an effect of the order or a wrong weight may be too small to see.", "anchors": ["oneka/utilities.py:filter_obs", "oneka/model.py:Model.fit_regional_flow", "oneka/model.py:Model.construct_fit", "oneka/utilities.py:summary_statistics", "oneka/stochastic.py:create_stochastic_capturezone", "oneka/deterministic.py:create_deterministic_capturezone", "oneka/oneka.py:oneka"]}
{"id": "C130", "title": "How the duration, the tolerance and the step limit act on the result", "statement": "In exact arithmetic: (1) two traces of the same steady velocity from the same place, with the same settings except for two durations of the same sign, have the same vertices until the first step that would pass the end of the shorter duration; the shorter trace then takes the remaining time in one step if that step meets the tolerance and the step limit. (2) In a uniform flow whatever is near the trace of the shorter duration is near that of the longer one, whatever the tolerances and step limits. (3) In general only up to the errors of the traces: if both follow the exact pathline within d and d', what is within u of the shorter one is within u + d + d' of the longer one. So a run or call with a longer (or equal) duration, any other tolerance and step limit, and an umbra larger by d + d' has the same models, fits and recharges and nowhere a smaller weight. (4) Without the larger umbra this is false: there is a run in which doubling the duration takes the weight of a node from 1 to 0.", "quantifier": "for all steady velocities, starts, durations of equal sign, tolerances, step limits and returned traces (1); all uniform velocities (2); all models, distributions, wells, random numbers, numbers of realizations, and pairs of calls that return (3)", "why_tests_cant": "The claim compares pairs of runs for all durations, tolerances, step limits and models. A test compares two runs; whether the capture zone only grows with time cannot be seen from samples, and (4) needs a run that was constructed for it.", "anchors": ["oneka/capturezone.py:compute_backtrace", "oneka/capturezone.py:compute_capturezone", "oneka/stochastic.py:create_stochastic_capturezone", "oneka/oneka.py:oneka", "oneka/probabilityfield.py:ProbabilityField.rasterize"]}
{"id": "C131", "title": "What is recorded is water on its way to the well", "statement": "In exact arithmetic, for calls whose traces follow the exact pathlines within d (the conditions of C95): the weight of a node in the archive is at least the number of realizations in which some water nearer than umbra - d to the node is carried by the flow of the realization's model to one of the starting points, one metre outside the rim of the well, within the duration; and at most the number of those in which some water nearer than umbra + d is. If within one metre of the rim all water flows inward with a radial velocity of at least c, that water enters the well at most 1/c days later; in a confined aquifer this is so if the well pumps more than 2 pi (rw + 1) (G + c n T), where G bounds the discharge of the regional flow and the other wells. Without strong pumping the recorded water need not reach the well: there is an accepted call about an idle well whose archive records, with weight 50 of 100, nodes from whose umbra no water ever reaches the rim in any realization.", "quantifier": "for all arguments and random numbers for which the call returns and its traces follow the exact pathlines, all nodes, all paths of water particles (differentiable curves that move with the velocity of the model), all models, wells, radii, inward velocities", "why_tests_cant": "The claim relates the archived numbers to all water particles in the aquifer, uncountably many curves, and to whether these enter the well; a test can follow some computed particles with the same integrator.", "anchors": ["oneka/capturezone.py:compute_capturezone", "oneka/capturezone.py:compute_backtrace", "oneka/model.py:Model.compute_velocity", "oneka/model.py:Model.compute_discharge", "oneka/stochastic.py:create_stochastic_capturezone", "oneka/oneka.py:oneka"]}
{"id": "C132", "title": "A stochastic run in which every draw takes its mean", "statement": "If in every realization every drawn parameter equals its mean and the drawn coefficients equal the fitted ones, then a stochastic run of n >= 1 realizations ends as the deterministic run with the same other arguments does: it hangs, raises the same exception, or returns if that one does. If both return, every realization has the model, the fit and the traces of the deterministic run and logs the opposite recharge; the grids have the same nodes; the weight of a node is its weight in the deterministic run plus n - 1 if a trace passes within the umbra; so no probability is smaller than in the deterministic run, and if the umbra does not exceed the spacing every probability is the same, 0 or 1. The same holds for the archives of two calls that differ only in the number of realizations. With an umbra wider than the spacing the probabilities can differ: there are two returning calls in which a node gets probability 0 for one realization and (r - 1)/r for r identical ones.", "quantifier": "for all arguments, numbers of realizations, random numbers that take the means, linear algebra and interrupts that are the same in every realization, all nodes and all predicates of the probability", "why_tests_cant": "Compares two different code paths for all inputs, including those for which neither returns; with random draws the condition is met with probability 0, so no run of the code exercises it except with constant parameters.", "anchors": ["oneka/deterministic.py:create_deterministic_capturezone", "oneka/stochastic.py:create_stochastic_capturezone", "oneka/capturezone.py:compute_capturezone", "oneka/probabilityfield.py:ProbabilityField", "oneka/oneka.py:oneka"]}
{"id": "C133", "title": "The probability at the well itself, and realizations that capture nothing", "statement": "A realization none of whose traces leaves its starting point captures nothing at all; if one does, it captures every place nearer to the well than umbra - (rw + 1). In the archive of a call that returns, the total weight is the number of realizations, the weight of a node is at most the number of realizations that move, and if umbra > rw + 1 the node of the well (and those of its neighbours nearer than umbra - rw - 1) has exactly this weight, so that no node is more probable than the well. In an unconfined aquifer a trace whose start is dry has no other vertex; a realization dry at all starts captures nothing, but is counted. Without umbra > rw + 1 the well can be the hole of its own capture zone: for every number of realizations there is an accepted call that gives the well probability 0 and the place 2 m east of it probability 1; and there is a call of 100 realizations, half of them dry, with no probability above 1/2.", "quantifier": "for all arguments and random numbers for which the call returns, all realizations, umbrae, places and nodes", "why_tests_cant": "Quantifies over all models, traces and nodes; that dry realizations are counted shows only as probabilities that are too small, which no example reveals as wrong.", "anchors": ["oneka/capturezone.py:compute_capturezone", "oneka/capturezone.py:compute_backtrace", "oneka/model.py:Model.compute_velocity", "oneka/probabilityfield.py:ProbabilityField.rasterize", "oneka/probabilityfield.py:ProbabilityField.register", "oneka/stochastic.py:create_stochastic_capturezone", "oneka/oneka.py:oneka"]}
{"id": "C134", "title": "What the last line of the program means", "statement": "`python runme.py` prints its last line (DONE) if and only if main returns for the name that was typed, once, as the last line of the console. After it, either the archive of the run can be loaded and holds every constant of the module, and the elapsed time was printed; or no module of that name was found, a message with the name was printed, no elapsed time was, and no file has changed. So DONE alone does not say that anything was computed; the line of the elapsed time does: it is printed if and only if the module is found and main returns. The program changes files exactly as main does. Without an answer to the prompt it raises and changes nothing. `profile_me` raises a NameError in the imported module and computes nothing; in the program it ends as main does, with the same effects on files, and leaves the profiler on if and only if main did not return.", "quantifier": "for all names, modules, environments and states of the files", "why_tests_cant": "The prompt and the last line are outside every function that a test can import, and the claim quantifies over all modules and all ways in which main can end.", "anchors": ["runme.py:main", "runme.py:profile_me", "oneka/oneka.py:oneka", "oneka/archive.py:load_oneka"]}
{"id": "C135", "title": "The choice of units does not matter", "statement": "All arguments should be in consistent units, and no conversions are made. So if all lengths are given in another unit of length and all times in another unit of time, with the same random numbers, the results are the same results in the other units. In exact arithmetic this holds of potential, discharge, head and velocity and of the fit of the regional flow with its covariances, for all models, observations and places. For the filter of the observations it holds if no two observations are closer than one unit of length in the one unit but not in the other; otherwise they are merged in the one and kept in the other. The trace in the other units is the converted trace of a tracer that differs only in its first step (0.1 other units of time) and in where machine epsilon is added. For whole calls: models, expected values and covariances of all realizations are the converted ones, the traces are those of that tracer from starting points that are one other unit of length outside the rim of the well, and the field counts the realizations with a trace that passes a node within the umbra. The starting points are never the same places in both units, and the acres in the log are right for metres only.", "quantifier": "for all models, observations, velocity fields, arguments and random numbers and all positive conversion factors of length and time", "why_tests_cant": "The claim relates pairs of calls for all conversion factors; floating point results of the two calls differ in any test, so a test cannot tell rounding from a hidden constant with a unit.", "anchors": ["oneka/oneka.py:oneka", "oneka/model.py:Model", "oneka/utilities.py:filter_obs", "oneka/capturezone.py:compute_backtrace", "oneka/capturezone.py:compute_capturezone"]}
{"id": "C136", "title": "What the flag confined does", "statement": "`confined` selects the function that computes velocities, and nothing else. Where the head is not below the thickness of the aquifer, both functions give the same velocity. Of two returning calls that differ in this flag only, with the same random numbers, all realizations have the same models, the same expected values and the same covariances. Each pair of their traces coincides up to the first place where the tracer needs a velocity and the aquifer is not confined; if a trace meets no such place, it is the same in both calls. If that is true of all traces, both calls archive a field with the same nodes and the same weights.", "quantifier": "for all models and places, all pairs of returning calls that differ in `confined`, all random numbers, interruptions and results of the linear algebra routines", "why_tests_cant": "The claim relates pairs of calls, over all models, traces of any length, and all draws; a test compares one pair, and cannot tell where the two tracers would have parted.", "anchors": ["oneka/model.py:Model.compute_velocity", "oneka/model.py:Model.compute_velocity_confined", "oneka/stochastic.py:create_stochastic_capturezone", "oneka/deterministic.py:create_deterministic_capturezone", "oneka/capturezone.py:compute_backtrace", "oneka/oneka.py:oneka"]}
{"id": "C137", "title": "A well that neither pumps nor injects has no effect", "statement": "A well whose discharge is the number 0 changes neither potential, discharge, head nor velocity at any place other than its own, nor a fit to observations at other places. At its own place discharge and confined velocity are not numbers. Of two returning calls, the second one with one more such well at the end of the list, within whose buffer there is no observation, and with all other draws the same, the same observations are retained, and all realizations have the same models but for that well, the same expected values and the same covariances. Each pair of their traces coincides up to the first place where the tracer needs the velocity at the idle well itself; a trace that does not need it is the same in both calls. If that is true of all traces, both calls archive a field with the same nodes and the same weights. (By C124 the order of the wells does not matter.)", "quantifier": "for all models and places, all lists of wells and observations, all pairs of returning calls that differ by one idle well, all random numbers, interruptions and results of the linear algebra routines", "why_tests_cant": "The claim relates pairs of calls over all models, traces of any length and all draws; a test compares one pair, and hits the place of the idle well, where the claim fails, only by accident.", "anchors": ["oneka/model.py:Model.compute_potential", "oneka/model.py:Model.compute_discharge", "oneka/model.py:Model.construct_fit", "oneka/utilities.py:filter_obs", "oneka/stochastic.py:create_stochastic_capturezone", "oneka/deterministic.py:create_deterministic_capturezone", "oneka/oneka.py:oneka"]}
{"id": "C138", "title": "What the target does", "statement": "The target selects the well around which paths start and the origin of the local coordinates of the regional flow; it has no influence on the aquifer. Of two returning calls that differ in the target only, with the same random numbers for the parameters, both retain the same observations and make as many realizations, with the same aquifer and the same wells in each. In each realization the fit expects the same potential at every place, with the same covariance between any two places, although it is made about another origin. If one realization is asked for, so that the expected flow is traced, then potential, discharge, head and both velocities are the same at every place, and all traces of both calls lead upstream through the same flow.", "quantifier": "for all pairs of returning calls that differ in the target, all random numbers, interruptions and correct linear algebra routines; for all aquifers, observations, origins and places", "why_tests_cant": "The claim relates pairs of calls, at all places of the plane, over all draws and all layouts of the observations; a test compares potentials at a few places for one pair.", "anchors": ["oneka/model.py:Model.fit_regional_flow", "oneka/model.py:Model.construct_fit", "oneka/model.py:Model.compute_fit", "oneka/stochastic.py:create_stochastic_capturezone", "oneka/deterministic.py:create_deterministic_capturezone", "oneka/oneka.py:oneka"]}
{"id": "C139", "title": "What the result of a call depends on", "statement": "The result of a call depends on the numbers in its arguments, the retained observations and the random numbers, and on nothing else. Two accepted calls that agree in these end in the same way: both return, both raise the same exception, or both run forever. They log the same summary of the observations, the same realizations and the same areas, draw the same figures except for how smooth the probabilities are, and archive the same field. So the name of the project, the stated time, the clock, `smooth`, the buffer and the observations it removes, and whether numbers are written as integers or floats and groups as tuples or lists, have no influence; and a call repeated with the same random numbers gives the same result.", "quantifier": "for all pairs of accepted calls with the same numbers and the same retained observations, all random numbers, interruptions and results of the linear algebra routines", "why_tests_cant": "A test repeats one call and compares; that no hidden dependence on a name, a spelling, the clock or a removed observation exists is a statement about all pairs of calls, including those that raise or never end.", "anchors": ["oneka/oneka.py:oneka", "oneka/oneka.py:log_the_run", "oneka/utilities.py:filter_obs", "oneka/stochastic.py:create_stochastic_capturezone", "oneka/deterministic.py:create_deterministic_capturezone", "oneka/visualize.py:create_probability_plot"]}
{"id": "C140", "title": "How the decile table is related to the capture zones of the realizations", "statement": "Let the umbra not exceed the spacing, and call the cells around the nodes that one realization captures its capture zone. Of a returning call with several realizations: the mean area of the capture zones is the sum of the archived probabilities times the area of a cell; the area where the probability exceeds a threshold is at most the mean area divided by the threshold (so is each area in the decile table, less the extra cell of C54); the mean area is at most the threshold times the area of positive probability plus the rest times the area above the threshold; each realization captures at least the area of probability 1 and at most the area of positive probability, which is at most the sum of all zones. The area that a call with one realization reports is the area of the capture zone of that realization.", "quantifier": "for all returning calls with umbra not above spacing, all thresholds, all realizations, all random numbers", "why_tests_cant": "The claim bounds what any number of random realizations can do to the reported areas; a test sees one set of realizations.", "anchors": ["oneka/oneka.py:oneka", "oneka/visualize.py:create_impact_plot", "oneka/visualize.py:create_deterministic_plot", "oneka/probabilityfield.py:ProbabilityField.register", "oneka/stochastic.py:create_stochastic_capturezone"]}
{"id": "C141", "title": "Of the wells only the sum of the discharges at every place matters", "statement": "Two wells at the same place act as one with the sum of their discharges, wells may be listed in any order, and the radius of a well does not affect the flow: wells that discharge the same in sum at every place give the same potential, discharge, head and velocity at all places without a well, and the same fit; conversely, if the potential is the same at all places without a well, the sums are the same. The observations that are removed depend on the set of the places of the wells only. Two returning calls that differ only in the wells (the targets being at the same place with the same radius), with realizations in which the same conductivities, porosities, thicknesses and sums of discharges are drawn, find the same regional flows, trace the same paths as long as no velocity at a well is needed, and then archive the same field.", "quantifier": "for all lists of wells, all places without a well, all pairs of returning calls, all random numbers with the same sums", "why_tests_cant": "Quantifies over all ways of describing the same pumping by lists of wells, and over all places; the converse needs a limit at the well.", "anchors": ["oneka/model.py:Model.compute_potential", "oneka/model.py:Model.compute_potential_wells_only", "oneka/model.py:Model.compute_discharge", "oneka/model.py:Model.construct_fit", "oneka/utilities.py:filter_obs", "oneka/oneka.py:oneka"]}
{"id": "C142", "title": "How wide the capture zone of a well in a uniform flow can be", "statement": "Where the regional flow is uniform and there is one well that does not inject, water comes nearer to the axis (the line through the well in the direction of the uniform flow) all the time, along the classical streamlines: what it loses in distance from the axis times the uniform discharge is the discharge of the well times the angle by which its bearing from the well turns, over 2 pi. So it comes nearer by no more than Q/(2U), the well's discharge over twice the uniform discharge, and never comes back from farther downstream than the stagnation point, Q/(2 pi U) below the well. Hence a realization with a uniform flow captures no place farther from the axis than Q/(2U), or farther downstream than the larger of Q/(2 pi U) and the distance of the starting points, plus the umbra, the accuracy of its traces and (across) the distance of the starting points; and the archived weight of a node counts no realization for which it lies outside these bounds. (Q times 1 + 1e-16, since the program rounds 1/(2 pi).)", "quantifier": "for all aquifers with a uniform regional flow, all wells, all paths of water, all returning calls, all realizations and all nodes", "why_tests_cant": "Quantifies over all solutions of the differential equation of the flow and all durations; a test can only follow some traces for some time.", "anchors": ["oneka/model.py:Model.compute_velocity", "oneka/model.py:Model.compute_discharge", "oneka/capturezone.py:compute_backtrace", "oneka/capturezone.py:compute_capturezone", "oneka/oneka.py:oneka"]}
{"id": "C143", "title": "What the smoothed probability map shows", "statement": "The probability map of a returning call with several realizations has at least three rows and columns of nodes, one spacing apart, and shows at every node the average of the archived capture frequencies of the nodes in a square around it (those not in the grid counting as zero), with the bell-shaped weights of standard deviation `smooth` (in nodes), the square reaching four standard deviations, rounded, in each direction. So the values shown are between 0 and 1: 0 exactly where no node within reach has ever been captured, 1 exactly where all nodes within reach always have been. A `smooth` below 1/8 changes nothing. The values shown never add up to more than the archived frequencies, and to less unless everything within reach of a captured node is in the grid. The smoothing keeps the shape of a table and the order of tables.", "quantifier": "for all returning calls, all archived fields, all positive values of smooth, all nodes", "why_tests_cant": "Quantifies over all fields and all widths of the kernel, and characterises exactly when values 0 and 1 are shown and when probability is lost at the border.", "anchors": ["oneka/visualize.py:create_probability_plot", "oneka/oneka.py:oneka"]}
{"id": "C144", "title": "The dividing streamline of a well in a uniform flow", "statement": "If in a realization there is just one well, which pumps, and the regional flow is uniform, there is a curve around the well that no water crosses in either direction. Inside it, the distance from the axis of the flow through the well is at most the half width of the zone far upstream times the share of 180 degrees that the direction from the well makes with the direction of the flow; all places nearer to the well than the stagnation point are inside. So if the traces start (one metre from the rim of the well) nearer than the stagnation point, the realization captures only places within the umbra, and the accuracy of the traces, of this classical capture zone, and the archived weight of a node counts no realization of whose zone no place is so near.", "quantifier": "for all discharges of the well and of the uniform flow, all paths of water, all durations, all calls, all nodes", "why_tests_cant": "Quantifies over all exact paths of water and shows that none crosses the curve; a test follows a few traces that are only approximations of paths.", "anchors": ["oneka/model.py:Model.compute_velocity_confined", "oneka/capturezone.py:compute_capturezone", "oneka/capturezone.py:compute_backtrace"]}
{"id": "C145", "title": "A well in an aquifer at rest: the fixed-radius formula", "statement": "If in a realization of a confined aquifer there is one well and neither regional flow nor recharge, all water moves on rays to the well, and between the distances of now and of s days ago there is exactly the water that the well pumps in s days (the constant for 1/2 pi being accurate to 16 digits). So what a realization captures is, up to the accuracy of the traces, what is within the umbra of the pieces of the rays through the starting points that end where the cylinder around the well holds the water pumped in the duration; beyond the radius of that cylinder plus the umbra nothing is captured. The archived weight of a node counts the realizations accordingly. A stated bound on discharge and step limit suffices for the traces to follow the rays.", "quantifier": "for all discharges, porosities, thicknesses, durations, all numbers of paths, all paths of water, all calls, all nodes", "why_tests_cant": "Quantifies over all exact paths of water (an equivalence, so it needs uniqueness as well as existence of the paths) and over all nodes and realizations of a call.", "anchors": ["oneka/model.py:Model.compute_velocity_confined", "oneka/capturezone.py:compute_capturezone", "oneka/capturezone.py:compute_backtrace"]}
{"id": "C146", "title": "Straight pathlines are traced straight", "statement": "If the velocity on a straight line is along the line, a trace that starts on the line stays on it, whatever the tolerance, step limit, duration and strength of the flow, and even if the velocity function is stateful or raises. In a fitted model this is so on every line through the only well if the aquifer is at rest or has only recharge spread evenly about the well, and on a line in the direction of a uniform flow that contains all wells. Around a pumping well in a confined aquifer at rest each vertex of a trace is on the ray from the well through the start and farther from the well than the one before, however long the steps. So such a realization captures no place that is the umbra or more away from all lines (or rays) through the well and the starting points, and the archived weights do not count it there: with few paths there are gaps.", "quantifier": "for all lines, velocity functions, tolerances, step limits, durations, discharges and interrupts, all realizations, all calls, all nodes", "why_tests_cant": "Quantifies over all step sizes and all settings of the tracer, without any assumption on its accuracy, and over all nodes of all calls.", "anchors": ["oneka/capturezone.py:compute_backtrace", "oneka/capturezone.py:compute_capturezone", "oneka/model.py:Model.compute_velocity", "oneka/model.py:Model.compute_velocity_confined"]}
{"id": "C147", "title": "How far a trace can lead", "statement": "Whatever the tolerance and the step limit, and even if the velocity function is stateful or raises: if the component of the velocity in some direction is always between lo and hi, compute_backtrace moves in this direction, in the time it covers (the duration, or the time in the warning), by at least lo - 0.3224 (hi - lo) and at most hi + 0.3224 (hi - lo) per unit of time. If lo exceeds 0.3224 (hi - lo), every vertex is farther in this direction than the one before. If no velocity is faster than M, no vertex is farther from the start than 1.645 M times the duration, forward or backward. The factor 5579/3392 = 1.645 is attained, so a trace can lead farther than the water moves.", "quantifier": "for all velocity functions (stateful, raising), starts, durations, tolerances, step limits, directions and bounds", "why_tests_cant": "A test traces particular flows, in which the error estimate keeps the steps accurate; the bounds hold for every flow and for the worst combination of the stages of a step.", "anchors": ["oneka/capturezone.py:compute_backtrace"]}
{"id": "C148", "title": "Calls under python -O", "statement": "Python started with -O leaves out the assertions of oneka. A call that passes them does exactly the same without them, whatever it does: log, figures, archive, exceptions, hangs. A call that does not is rejected with nothing logged; without the checks it logs its arguments and goes on. A target index that is negative then counts from the end of the list of wells: it ends as the call with the index counted from the front, with the same realizations and the same archived field. One to five retained observations then raise a LinAlgError instead of an AssertionError. A duration of zero, in a call that nothing else is wrong with, is the dangerous case: without the checks the call returns and archives a field in which no node around the well (no node at all if the umbra is at most the spacing) is captured, with the full number of realizations.", "quantifier": "all calls whose arguments are in the modelled range, all environments (draws, files, time); for LinAlgError and the duration: linear algebra that does what it promises", "why_tests_cant": "Tests run with assertions, and the equality is between whole executions of two programs for all inputs, including those that do not end.", "anchors": ["oneka/oneka.py:oneka"]}
{"id": "C149", "title": "How accurate the reported areas are", "statement": "A capture-zone area is reported as the number of recorded nodes times the area of a cell. If the umbra does not exceed the spacing: the area logged by a deterministic call is at least the true area (Lebesgue measure) of any strip around its traces that is narrower than the umbra by half a diagonal of a cell on each side, and at most that of the strip that is wider by as much. The same holds in a stochastic call for the area of all cells with a probability above any threshold, and the places that more than this fraction of the realizations pass; and so for the lines of the decile table, less the cell they add. The upper bounds hold for every umbra. With the accuracy of the traces the strips are strips around the exact pathlines. For a well in an aquifer at rest whose traces are close enough together, the area is at least the area of the aquifer that holds the water pumped in the duration, and at most that of the disc with the fixed radius, widened by umbra, accuracy and half a diagonal.", "quantifier": "all returning calls (lower bounds: umbra not exceeding the spacing); all realizations, all spacings, all umbras, all thresholds", "why_tests_cant": "The claim compares a count with the measure of an arbitrary set, for all grids and all traces; a test can only compare single numbers.", "anchors": ["oneka/visualize.py:create_deterministic_plot", "oneka/visualize.py:create_impact_plot", "oneka/probabilityfield.py:ProbabilityField", "oneka/capturezone.py:compute_capturezone"]}
{"id": "C150", "title": "How a track is described does not matter", "statement": "rasterize takes a track as lists of coordinates. Passing the same curve from its other end, with repeated vertices, or with additional vertices on its segments gives the same field: the same nodes, the same weight and mark at every position, and the same total weight, at once and after any further calls, for every umbra. A track may also be passed in two pieces that share a vertex if the umbra does not exceed the spacing; with a larger umbra the pieces can mark fewer nodes than the whole track.", "quantifier": "all fields constructed with an origin; all histories of tracks, boxes, register and reset; any number of redescribed tracks; all umbras (cutting: umbra at most the spacing)", "why_tests_cant": "There are infinitely many descriptions of a curve and infinitely many histories around it; a test compares a few.", "anchors": ["oneka/probabilityfield.py:ProbabilityField.rasterize", "oneka/probabilityfield.py:ProbabilityField.insert", "oneka/probabilityfield.py:ProbabilityField.expand", "oneka/probabilityfield.py:distancesquared"]}
{"id": "C151", "title": "A well fed by recharge: the catchment is the disc whose recharge equals the discharge", "statement": "Let one well pump in an aquifer with constant recharge whose water would otherwise flow evenly away from the well's place. By Model.compute_velocity (either variant) all water inside the circle whose recharge equals the discharge comes nearer to the well and all water outside gets farther away, so however long the duration the capture zone does not reach beyond the circle by more than the umbra. In a confined aquifer the squared distance differs from that of the circle by an exponential in time, at the rate recharge/(porosity*thickness): this gives exactly which positions are delivered; every place inside the circle is delivered after a stated time; and no path is longer than without recharge.", "quantifier": "all physical aquifers with one well and centred constant recharge; both variants (paths and times: confined); all discharges and recharges > 0; all durations, umbras, positions", "why_tests_cant": "The claim is about every path of the water over unlimited durations; a test follows a few tracks for a few steps.", "anchors": ["oneka/model.py:Model.compute_discharge", "oneka/model.py:Model.compute_velocity", "oneka/model.py:Model.compute_velocity_confined", "oneka/capturezone.py:compute_backtrace"]}
{"id": "C152", "title": "A run can be done in batches", "statement": "A stochastic run of m+n realizations returns exactly if a run of m and a run of n realizations return that together use the same random numbers in the same order; it then has the realizations of both. If the umbra does not exceed the spacing, its weights are everywhere the sums of the weights of the batches, and the archived probability is the average of the archived probabilities of the batches, weighted with their numbers of realizations. If the umbra exceeds the spacing the average of the batches is never more than the probability of the single run, but it can be less.", "quantifier": "all arguments; all numbers of realizations m, n (calls of oneka: m, n > 1); all random numbers; all positions; all umbras", "why_tests_cant": "It relates any three runs of any lengths with any random numbers, at every position; a test can compare a few runs.", "anchors": ["oneka/stochastic.py:create_stochastic_capturezone", "oneka/probabilityfield.py:ProbabilityField.register", "oneka/probabilityfield.py:ProbabilityField.rasterize", "oneka/oneka.py:oneka"]}
{"id": "C153", "title": "Curves that water crosses outward only bound the capture zone", "statement": "If compute_discharge points outward everywhere on a curve (away from wells), then, confined or not, water that arrives at a place inside the curve was never outside, so the capture zone of a well whose starting points are inside does not extend beyond the curve by more than the umbra. For a line: nothing is captured from beyond a line that all water crosses in the direction away from the well. For a circle: a well that injects more than the discharge of everything else times the circumference of the starting circle captures nothing outside this circle. In the archive of a returning call whose traces follow their pathlines within delta, positions at least umbra + delta away from the inside have no weight.", "quantifier": "all physical aquifers with any wells and regional flow; all differentiable curves; both variants; all durations, umbras, positions", "why_tests_cant": "It is a claim about all paths of the water in all aquifers, over unlimited durations; tests follow a few traces.", "anchors": ["oneka/model.py:Model.compute_discharge", "oneka/model.py:Model.compute_velocity", "oneka/model.py:Model.compute_velocity_confined", "oneka/capturezone.py:compute_capturezone", "oneka/stochastic.py:create_stochastic_capturezone"]}
{"id": "C154", "title": "Treating the aquifer as confined never enlarges the capture zone", "statement": "The flag confined does not change the way the water takes, only the time it needs. Water that compute_velocity_confined carries to a place with a positive head within a given time is carried there by compute_velocity along the same way in at most the same time; conversely, water that compute_velocity carries to a place where the head is at least beta times the thickness is carried there by compute_velocity_confined along the same way in a time that is at least as long and at most 1/beta times as long. So, up to the accuracy of the traces, the capture zone of a realization with confined=True is contained in the one with confined=False and the same or a longer duration, and the one with confined=False in the one with confined=True and 1/beta times the duration. The same bounds hold for the weights archived by a returning call. Of two stochastic calls in the same surroundings that differ only in the flag, and in the umbra by the accuracy of the traces, the one with confined=False archives a weight at least as large at every node.", "quantifier": "all physical aquifers with any wells and regional flow; all paths, durations, umbras, positions; all beta in (0, 1]; all realizations; all returning calls", "why_tests_cant": "It relates all paths of two different velocity fields in all aquifers; tests compare single traces.", "anchors": ["oneka/model.py:Model.compute_velocity", "oneka/model.py:Model.compute_velocity_confined", "oneka/model.py:Model.compute_head", "oneka/capturezone.py:compute_capturezone", "oneka/stochastic.py:create_stochastic_capturezone"]}
{"id": "C155", "title": "Water is captured from higher heads only, and the fall of the potential bounds how far it comes", "statement": "Confined or not, water that the velocity of the model carries from one place to another comes from where compute_potential (and compute_head, if it answers at the goal) is at least as high, and strictly higher unless it stays where it is. So water does not flow in circles: what returns to a place has never left it. If it takes the time tau, the square of the distance is at most tau times the fall of the potential, divided by the porosity and the saturated thickness at the goal; in a uniform flow this bound is attained. So a realization captures a position only if, within the umbra and the accuracy of the traces, the potential is somewhere higher than at a starting point by porosity times thickness times the square of the distance from there divided by the duration. The archived weight of a node counts only such realizations.", "quantifier": "all physical aquifers with any wells and regional flow; both variants; all paths, durations, umbras, positions; all realizations; all returning calls", "why_tests_cant": "It is a bound for all paths in all aquifers; tests follow a few traces.", "anchors": ["oneka/model.py:Model.compute_potential", "oneka/model.py:Model.compute_head", "oneka/model.py:Model.compute_velocity", "oneka/model.py:Model.compute_velocity_confined", "oneka/capturezone.py:compute_capturezone", "oneka/stochastic.py:create_stochastic_capturezone"]}
{"id": "C156", "title": "With the same discharge, more storage means a smaller capture zone", "statement": "Take two models with the same wells and the same coefficients of the regional flow, so that compute_potential and compute_discharge answer the same, of which the second one has no larger porosity and thickness and no smaller conductivity. Confined or not, all water that the first one carries to a place within a given time the second one carries there within this time, along the same way. With k times the porosity the water needs exactly k times as long. So, up to the accuracy of the traces, the capture zone of a realization is contained in the one of a realization with less storage and the same or a longer duration; and the weights archived by a returning call lie between the numbers of realizations in which aquifers with more and with less storage deliver the water. Of two stochastic calls in the same surroundings that differ only in the distribution of the porosity, and in the umbra by the accuracy of the traces, the one that draws no larger porosities archives a weight at least as large at every node.", "quantifier": "all physical aquifers with any wells and regional flow; all conductivities, porosities, thicknesses; both variants; all durations, umbras, positions; all realizations; all returning calls", "why_tests_cant": "It relates all paths of different velocity fields in all aquifers; tests compare single traces.", "anchors": ["oneka/model.py:Model.compute_velocity", "oneka/model.py:Model.compute_velocity_confined", "oneka/model.py:Model.compute_discharge", "oneka/capturezone.py:compute_capturezone", "oneka/stochastic.py:create_stochastic_capturezone"]}
