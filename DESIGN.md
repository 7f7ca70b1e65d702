# OnekaPy in Lean 4: design

The properties are in `properties.jsonl`, their status and theorem names in `MANIFEST.json`, the mutation tests in `seeded/LOG.jsonl`.
Build with `lake build` in `lean/`.

## 1. Layout

| directory | content |
|---|---|
| `lean/Verif/Py/` | the fragment of Python/numpy semantics used: exceptions as values, divergence, 2-D arrays with Python indexing, reals with inf and NaN, Python values |
| `lean/Verif/Model/` | the model, one file per Python module (a few modules have two), every definition citing file and lines |
| `lean/Verif/Spec/` | the vocabulary in which the properties are stated (distance to a segment, lattice, conics, acceptable arguments, ...). It refers to the model only through its types and its API functions |
| `lean/Verif/Lemmas/` | helper lemmas; `Props<X>.lean` are the ones that only `Props/<X>.lean` needs |
| `lean/Verif/Props/` | the property theorems, named `Cnn_...`, with the examples that meet their hypotheses (and the lemmas and definitions that only these examples need; a handful of lemmas that follow from a property theorem and are used by a later one are also here). `Examples.lean`, `RunmeExamples.lean`, `CaptureExactExamples.lean` and `StatisticsExamples.lean` contain the examples for whole calls |

| Python | Lean model |
|---|---|
| `oneka/probabilityfield.py` | `Model/ProbabilityField.lean` |
| `oneka/capturezone.py` | `Model/Backtrace.lean`, `Model/Capturezone.lean`; `Model/FlCapturezone.lean` (starting points, traces and field in floating-point arithmetic), `Model/AnyCapturezone.lean` (the same for any kind of numbers) |
| `oneka/model.py` | `Model/Aquifer.lean`, `Model/CoefHeap.lean` (which model shares which coefficient array); `Model/FlFit.lean` (the fit in floating-point arithmetic) |
| `oneka/stochastic.py` | `Model/Variate.lean`, `Model/BackVelocity.lean`, `Model/Stochastic.lean`; `Model/FlVariate.lean`, `Model/FlRun.lean` (draws and whole runs in floating-point arithmetic) |
| `oneka/deterministic.py` | `Model/BackVelocity.lean`, `Model/Stochastic.lean`; `Model/FlRun.lean` |
| `oneka/utilities.py` | `Model/Utilities.lean`; `Model/FlUtilities.lean` (in floating-point arithmetic) |
| `oneka/visualize.py` | `Model/Visualize.lean`; `Model/Smooth.lean` (the Gaussian filter of scipy as it is documented, for C143; elsewhere the filter is a parameter); `Model/FlReport.lean` (the impact curve and the decile table in floating-point arithmetic; `spacing**2` is a parameter, the C library computes it) |
| `oneka/oneka.py`, `oneka/archive.py` | `Model/Oneka.lean` (decile table: `Model/Visualize.lean`); `Model/Optimized.lean` (without the assertions, as `python -O` runs it, for C148) |
| `runme.py` | `Model/Runme.lean`, `Model/Script.lean` |
| `data/*.py` | `Model/Data.lean`, `Model/DataSets.lean` |

## 2. Modelling decisions

* **Exceptions** are values: `Except PyErr α`. **Non-termination** is a value too: a `while` loop is a
  `partial_fixpoint` definition into `Option`, where `none` means *runs forever*. "Terminates" is therefore a theorem (`≠ none`), never assumed by a fuel bound,
  and "runs forever" is a theorem as well (C21, C72).
* **Numbers.** `ProbabilityField` is written over a *lawless* number type (only operation symbols) and interpreted (i) over an arbitrary linearly ordered field `K` with floor (so the theorems
  C01–C16, C73 hold for ℝ, and the model is executable over ℚ) and (ii) over `Fl`, numbers of 53 binary digits with every operation rounded to nearest, ties to even (`Py/Round.lean`; C87–C89).
  `Fl` is binary64 but for the range of the exponent: there is no overflow, underflow, inf or NaN. (iv) `B64` (`Py/Binary64.lean`) is binary64 with its range; C116 to C119 and C126 show that the aquifer functions, the probability field, backtraces, capture zones, whole runs and the report do not leave it.
  The tracer and the aquifer model are written once, over a *lawless* number type `F` (only operation symbols), and are interpreted (i) over ℝ and
  (ii) over `XR`, the reals extended by `+inf, -inf, nan` with IEEE comparison and absorption rules. The capture zone, the runs and
  the driver use the tracer over `XR`, so that velocities at a well, infinite durations and so on are covered; `C26_agrees_with_reals` and `C33_agrees_with_reals` connect the
  two interpretations; both also (iii) over `Fl` (C90–C94), with an arbitrary power function and logarithm (`LibM`, `Py/RoundMath.lean`; `RootAccurate` and `LogAccurate` are their contracts). Rounding is
  **not** modelled outside `ProbabilityField`, the tracer, the `compute_…` functions of the aquifer model, the random parameters (C108), `filter_obs` (C109), `construct_fit` (C111), the two run functions (C113), and the plots and tables of C102–C104: all other arithmetic on finite numbers is exact. Squares (`dx**2`) are rounded once. `np.linalg.norm` is taken as the rounded root of the rounded sum of rounded squares, and no multiplication
  is fused with an addition.
* **Constants.** The literals for `1/(4π)` and `1/(2π)` are the exact binary64 numbers that Python reads; machine epsilon is 2^-52; the Dormand–Prince coefficients, 0.1 and 0.9 are the rationals written in the source. The literals of the data modules are
  the decimals that are written.
* **Division by zero** is never silently totalised: either the operands are numpy scalars (result `nan`/`inf`,
  modelled in `XR`, or as an explicit `none` in `distancesquared`), or Python scalars (ZeroDivisionError), or
  the theorem carries the hypothesis that excludes it and the excluded case is covered separately or named in section 5.
* **Arrays** are a shape and a total function read only through a bounds-checking accessor with Python's negative-index
  rule; slice assignment checks shapes and raises.
* **Python values.** The driver's arguments are `PyVal` (int, bool, float incl. inf/NaN, str, None, tuple, list, other), so that validation is modelled for arguments of any type.
  After validation the computation is modelled for all arguments whose numbers are finite (durations, tolerances and step limits may be infinite) and whose distributions are numbers or tuples
  (`PyArgs.Denotes`); outside these the stage between validation and archive is an arbitrary computation (`CallEnv.unmodelled`), about which nothing is assumed; theorems
  on validation, log and archive (C58–C61, C71, C75–C77) hold for it as well.
* **Effects.** A call of `oneka` or `main` is a list of effects (log entries, figures, files opened, written) and an ending: returns, raises, runs forever. The effects of a call that
  does not return are recorded too. Log entries are labels and values; `Model/Text.lean` gives the text of every entry and of the summary table, number formatting included.
* **Ghost components.** `compute_backtrace` in the model also returns the steps it accepted and the exception that stopped it, runs also return the traces of each realization. The code does not return these;
  they are only used to say what the result consists of, and no modelled code reads them.

## 3. Contracts of external code

* `numpy.linalg.lstsq` returns a minimiser of the residual; `numpy.linalg.inv` returns the two-sided inverse, LinAlgError iff singular (`LinAlg.Correct`); `lstsq` does not raise for finite systems (`LinAlg.Converges`)
  and raises LinAlgError for systems with inf or NaN (`LinAlg.Strict`; only C86 and C96 need it). If `lstsq` and `inv` return at all, their results are finite.
  Only theorems whose statement mentions these predicates assume them. `perfect_correct`, `perfect_converges` and `perfect_strict` show that they can be met.
* In floating-point arithmetic (C110–C114) the contracts are bounds with parameters: `lstsq` comes within `η²` of the least sum of squares (`Within`), an entry of `matmul` is off by at most `γ` and the residual of `inv` by at most `δ` of
  the terms that are added up (`Multiplies`, `Inverts`), and `inv` raises only if a relative change by `δ` makes the matrix singular (`Gives`). `η`, `γ` and `δ` may depend on the data. `nearestSolver` meets them.
* The power function of the C library: keeps positive numbers positive (`PowPositive`; C90, C91) or is accurate to a thousandth (`RootAccurate`; C91, C92). `nearestLib_root` shows that this can be met. Its logarithm is accurate to a unit in the last place (`LogAccurate`; C93, C94; `nearestLib_log`).
* numpy's random generators: any stream of draws in [0,1); uniform and triangular as numpy's documented inverse-CDF formulae; the multivariate normal draw is
  arbitrary, and may raise. C96 assumes that the numbers of different realizations are independent with the same law (`IidNumbers`; `exists_iid` shows that any law will do) and that the multivariate normal
  draw is a measurable function of its numbers; C97 that it is `ev + B z` with `B Bᵀ = cov` and `z` standard normal (`NormalGen.Factors`, `StandardNormals`).
* `pickle`/`bz2`: loading inverts dumping; opening or writing may raise at any call; a write that fails leaves a broken file.
* matplotlib: has no effect on results and does not raise. Wall clock: arbitrary.
* `logging`: a `FileHandler` opens its file for appending; `addHandler` keeps the handlers that are already there; `logging.shutdown` closes the files but does not detach the handlers, which reopen
  their files on the next entry.
* `importlib.import_module`: arbitrary result for every name.

## 4. Trusted base

* Lean's kernel.
* The axioms `propext`, `Classical.choice`, `Quot.sound`. Every theorem of `MANIFEST.json` depends on exactly these three, except `C07_degenerate` and `C15_constructor`, which
  depend on `propext` and `Quot.sound` only (checked with `collectAxioms`). No axioms are added; there is no `sorry`, no `native_decide`, no `bv_decide`. `decide +kernel` is used for finite
  checks of rational literals (`Lemmas/DataSets.lean`: C78; `Lemmas/ProjectTests.lean`: C115), and is checked by the kernel.
* The reading of the Python source that is recorded in the comments of the model.
* The contracts of section 3.

## 5. Not modelled

* Overflow and underflow outside the functions of C116 to C119 and C126; signed zeros; rounding inside numpy's linear algebra (`lstsq` is as accurate as its contract in C110 and C111 says; `matmul` and `inv` as those in C114 say. The parameters of the model in C93, C94 and C105 are the floating-point numbers that a fit and a draw resulted in, however accurate; C108 and C111 say how accurate these are, and C112 and C113 what a fit with rounding means for the traces and for a whole run).
* Text: the digits Python chooses for a float in `str` and `repr` (a parameter with a contract, `PyText.Faithful`), the sign of a negative zero, the prefix that `logging` puts before a message; numpy's `repr` of arrays; the statistics that the profiler prints, numpy deprecation behaviour, warnings.
* Running out of memory, kills, interrupts other than at a velocity evaluation (a KeyboardInterrupt there is swallowed by the tracer: C65), failures of the operating system other than failing to create the log
  file and to open or write the archive. Once created, a log file can be written.
* matplotlib raising (it would for contour maps with fewer than two rows or columns), and figures left open.
* List-valued distributions beyond validation and sampling (C43 shows that these are accepted but
  cannot be sampled).
* Arguments of the lower-level functions that no caller in the repository can produce (e.g. strings as coordinates).

## 6. Findings

Where a property is false of the code, the refutation is a theorem with `_fails` in its name, and the part that holds has the suffix `_partial`.

| finding | theorem |
|---|---|
| Nodes within umbra are missed if the umbra exceeds the spacing (as in shipped data modules); single-vertex tracks mark nothing. The exact rule is C73 | `C10_fails_if_umbra_exceeds_spacing`, `C10_fails_for_single_point` |
| With umbra > spacing the result depends on the order of the realizations | `C11_fails_if_umbra_exceeds_spacing` |
| The tracer runs forever for tolerances below machine epsilon, NaN velocities, starts on a well; a whole call hangs if a second well stands one metre east of the rim of the target | `C21_fails_*`, `C72_hangs` |
| The stochastic log reports the recharge with the opposite sign of the deterministic one | `C30_fails_for_stochastic_log` |
| Accepted distributions that cannot be sampled: lists, constant triples, infinite bounds | `C43_fails_*` |
| Duplicates that are separated in the list of observations are not averaged | `C50_fails_for_separated_duplicates` |
| The decile areas in the log are always one cell too large, or one cell if no node is at or below the threshold | `C54_fails_always` |
| Five of the nineteen levels of the decile table (0.40, 0.45, 0.50, 0.55, 0.80) are one unit in the last place too low: nodes captured in exactly that fraction of the realizations are counted as above the level | `C103_fails_at_exact_levels` |
| Areas below one acre are drawn at 0 on the logarithmic axis of the impact plot, where nothing shows; a zone below one acre gives an empty plot | `C104_fails_below_one_acre`, `C104_fails_small_zone`, `C104_fails_in_calls` |
| Unconfined observations bias the fit: on average the fitted potential at a site is too large by conductivity · std² (half of it added by the code, half by the square of the scattering level) | `C106_fails_unconfined` |
| A measured level raised from just below the aquifer thickness to the thickness lowers the fitted potential there | `C107_fails_at_thickness` |
| With six sites, a raised unconfined level changes the fitted potential there by more standard deviations than the level changed | `C110_fails_unconfined` |
| An observation whose head is just below the thickness can be treated as confined by rounding; its potential is then off by K·std²/2, here 500 standard deviations | `C111_critical` |
| A triangular draw can be smaller than the minimum of the distribution, even 0 for a positive one, and the mean of a triple can exceed its maximum, by rounding | `C108_fails_triangular`, `C108_fails_mean` |
| `contour_head` raises NameError at a dry node | `C57_fails_at_dry_nodes` |
| The default `smooth=0` is rejected by the argument check, so a call with default arguments always fails; `nrealizations` is not checked at all | `C59_fails_for_default_smooth`, `C59_fails_for_nrealizations` |
| A spacing that is lost in the digits of the origin is accepted, and then the first track through the origin is never drawn: the call hangs | `C88_hangs_at_large_coordinates`, `C88_hangs_for_a_track_through_the_origin` |
| Standard deviations, conductivities, thicknesses and porosities of zero are accepted, but make the call fail or run forever | `C86_zero`, `C86_duplicates`, `C86_porosity`, `C86_no_step` |
| Two runs within one second write the same archive | `C61_fails_same_second`, `C61_fails_broken` |
| In-place edits of the coefficients of a model built with the default change other models | `C63_fails_for_in_place_edits` |
| `quick_capture_zone` can never draw | `C67_quick` |
| What is recorded arrives one metre outside the rim of the well, but need not reach the well: also an idle well gets a capture zone | `C131_misses` |
| With an umbra wider than the spacing, a node can have probability 0 in the deterministic run and (r - 1)/r in a stochastic run of r identical realizations | `C132_wide` |
| With an umbra of at most rw + 1 the well itself can get probability 0 although its surroundings get 1 | `C133_hole` |
| Realizations in which the (unconfined) aquifer is dry around the well capture nothing but are counted: they dilute all probabilities | `C133_diluted` |
| Doubling the duration can remove a place from the capture zone | `C130_not_monotone` |
| The program says DONE also when it did not find the module; `profile_me` raises NameError in the imported module and leaves the profiler on | `C134_meaning`, `C134_profile` |
| The choice of units matters: traces start one unit of length outside the rim, observations closer than one unit are merged, the first step is a tenth of a unit of time, acres are right for metres only | `C135_fails_start`, `C135_fails_filter`, `C135_fails_acres` |
| A second run in one process also writes into the log file of the first; within the same second it writes every entry twice | `C77_fails_in_one_process`, `C77_fails_same_second` |

## 7. Properties: what is modelled, how it is proved

None of the properties is "not applicable". `partial` means that the full property is false of the code (section 6): the theorems settle on which inputs it holds.

| property | status | theorems (file in `Props/`) | what is modelled and how it is proved |
|---|---|---|---|
| C01 Field geometry stays consistent | proved | `C01_geometry` (Field) | Field operations over any ordered field; invariant (shape = positions) by induction over the list of calls. |
| C02 Grid nodes never leave their lattice | proved | `C02_lattice` (Field) | Same histories; node positions are origin + integer multiples of the spacing; induction. |
| C03 expand makes the box strictly interior | proved | `C03_expand_interior` (Field) | The four growth loops (`partial_fixpoint`); induction on the number of iterations given by floor. |
| C04 expand preserves accumulated contents | proved | `C04_expand_contents` (Field) | Contents read at world positions before and after `expand`; slice assignment with shape check. |
| C05 expand is minimal and idempotent | proved | `C05_expand_inside`, `C05_expand_idempotent`, `C05_expand_minimal` (Field) | Loop lemmas: the number of added cells is the least one; second call adds none. |
| C06 expand rejects inverted boxes and always returns otherwise | proved | `C06_expand_total` (Field) | Loops terminate (floor bound); inverted boxes raise; nothing else raises. |
| C07 distancesquared is the squared distance to the segment | proved | `C07_distancesquared`, `C07_degenerate` (Field) | Real algebra: three branches against the infimum over the segment parameter; zero length is NaN. |
| C08 insert marks exactly the grid nodes within umbra | proved | `C08_insert` (Field) | Nested loops over the sub-grid as folds; the window limits contain every node closer than umbra (floor lemmas). |
| C09 rasterize marks exactly the grid nodes within umbra of the track | proved | `C09_rasterize` (Field) | Induction over the segments with C08 and C04. |
| C10 A node within umbra of a track is always recorded | partial | `C10_recorded_partial`, `C10_fails_if_umbra_exceeds_spacing`, `C10_fails_for_single_point` (Field) | Recorded at positions, not indices. Proved for umbra <= spacing and non-degenerate tracks; refuted otherwise for every spacing. |
| C11 The result does not depend on the order of realizations | partial | `C11_order_partial`, `C11_fails_if_umbra_exceeds_spacing` (Field) | Permutations of realizations; through the refinement of C12; refuted for umbra > spacing. |
| C12 Accumulated weight is the sum over the realizations that visited the node | proved | `C12_accumulation` (Field) | Refinement of an abstract machine (position -> weight, set of marks) by induction over histories. |
| C13 Probabilities are between 0 and 1 | proved | `C13_probability_bounds` (Field) | Invariant over histories: 0 <= weight <= total. |
| C14 reset discards exactly the unregistered realization | proved | `C14_reset`, `C14_discard_leaves_no_trace` (Field) | Refinement corollaries: reset = the realization never happened. |
| C15 Constructor validation and uninitialized fields | proved | `C15_constructor`, `C15_origin`, `C15_empty` (Field) | Case analysis of the constructor; an uninitialised field rejects everything but expand. |
| C16 rasterize error behaviour | proved | `C16_rasterize_errors` (Field) | Case analysis over the error branches of rasterize, with the state left behind. |
| C17 A backtrace starts at its starting point and never raises | proved | `C17_start` (Backtrace) | First vertex of the loop state; exceptions of the velocity function are swallowed. |
| C18 Consecutive vertices are closer than maxstep and within tolerance | proved | `C18_steps`, `C18_steady` (Backtrace) | Loop invariant (partial correctness of the fixpoint) on accepted steps. |
| C19 A completed backtrace covers exactly the duration | proved | `C19_duration`, `C19_complete`, `C19_any_velocity`, `C19_zero_duration` (Backtrace) | Loop invariant on time; exact duration on normal termination, over ℝ and over floats with inf/NaN. |
| C20 Backtraces terminate if the velocity grows at most linearly | proved | `C20_terminates` (Backtrace) | Termination measure: lower bound on accepted step size, geometric shrinking on rejection, Gronwall-type bound for linear growth. |
| C21 compute_backtrace always terminates | partial | `C21_terminates_partial`, `C21_fails_below_machine_epsilon`, `C21_fails_for_nan_velocity`, `C21_fails_on_wells`, `C21_fails_for_second_well_east` (Backtrace, Wells) | Positive part is C20; refutations construct the infinite run (a state that repeats) for NaN velocity, tiny tolerance, the real models of the library. |
| C22 Negative duration traces forward | proved | `C22_reverse` (Backtrace) | Simulation between the loop with duration and with minus duration. |
| C23 Uniform flow is traced exactly | proved | `C23_uniform_flow` (Backtrace) | Invariant + C20 for a constant velocity. |
| C24 The integrator is a consistent 5(4) pair | proved | `C24_order`, `C24_code_is_method`, `C24_linear`, `C24_linear_trace` (Backtrace) | `C24_order`: the order conditions over rooted trees, for the tableau as printed in the literature (`Spec/RK.lean`). `C24_linear`: the stability polynomial. `C24_code_is_method`: for steady velocities `computeBacktrace` refines, in both directions and including termination, the relation `Adaptive` (a mathematical description of adaptive integration by `rkStep`, `localError`, `proposal`). |
| C25 An interrupted trace is a prefix | proved | `C25_prefix` (Backtrace) | Prefix relation between the interrupted and uninterrupted loop, by induction over the run. |
| C26 Traces only contain finite vertices | proved | `C26_finite`, `C26_agrees_with_reals` (Backtrace) | Invariant over `XR`; embedding of the real run into the extended run. |
| C27 Starting points surround the well uniformly | proved | `C27_starts` (Capture) | The list of starting points; equal angles on the circle of radius r+1 and nothing else. |
| C28 One capture-zone run registers exactly one realization | proved | `C28_one_realization`, `C28_returns` (Capture) | Composition of C17/C20, C09 and register. |
| C29 Discharge is minus the gradient of the potential | proved | `C29_gradient`, `C29_partials` (Aquifer) | Mathlib derivatives of the potential, away from wells. |
| C30 Recharge is uniform and flow irrotational | partial | `C30_divergence_curl`, `C30_deterministic_log`, `C30_fails_for_stochastic_log` (Aquifer, Runs) | Second derivatives; the logged number compared with the divergence of the fitted field; stochastic log refuted. |
| C31 Wells superpose | proved | `C31_closed_form`, `C31_order`, `C31_additive`, `C31_idle_well`, `C31_linear` (Aquifer) | Algebra of the sums over wells. |
| C32 Head and potential are mutually inverse | proved | `C32_inverse`, `C32_monotone` (Aquifer) | Real algebra, both aquifer regimes; strict monotonicity. |
| C33 Dry aquifer errors | proved | `C33_head`, `C33_velocity`, `C33_head_floats`, `C33_velocity_floats`, `C33_agrees_with_reals`, `C33_on_a_well` (Aquifer, Wells) | Case analysis over ℝ and over `XR`, with the classes of exceptions. |
| C34 Velocity is discharge over saturated pore thickness | proved | `C34_velocity`, `C34_confined` (Aquifer) | Real algebra. |
| C35 fit_regional_flow minimises the weighted squared error | proved | `C35_minimises` (Fit) | Weighted least squares over `Matrix (Fin n) (Fin 6) ℝ` with the lstsq contract; the weighted system is assembled over reals with inf and NaN and shown to be finite for usable observations (`finRow`). |
| C36 fit recovers an exact model | proved | `C36_recovers` (Fit) | Uniqueness of the minimiser (injective design matrix). |
| C37 The fit fails exactly for degenerate observation layouts | proved | `C37_degenerate`, `C37_few_locations`, `C37_collinear`, `C37_duplicates` (Fit) | Rank of the design matrix = observations on one conic; few locations, lines and duplicates as corollaries. |
| C38 Observations below the base are rejected | proved | `C38_range`, `C38_unchanged` (Fit) | Case analysis; the model object is unchanged on failure. |
| C39 The fitted potential surface does not depend on the local origin | proved | `C39_origin` (Fit) | Change of basis between two local origins; minimisers correspond. |
| C40 Covariance matrix of the fit | proved | `C40_covariance`, `C40_scaling` (Fit) | Algebra of (AᵀWA)⁻¹, scaling of the standard deviations. |
| C41 Random variates stay within their distribution | proved | `C41_in_range`, `C41_bounds` (Variate) | Inverse-CDF formulae, case analysis, real inequalities. |
| C42 compute_variate_mean is the expected value | proved | `C42_mean` (Variate) | Interval integrals of the inverse CDF equal the coded mean. |
| C43 Every accepted distribution can be sampled | partial | `C43_accepted_partial`, `C43_fails_for_lists`, `C43_fails_for_constant_triples`, `C43_fails_for_infinite_bounds` (Variate) | `isdistribution` against the sampler on arbitrary Python values; refuted for three families. |
| C44 Stochastic runs report relative frequencies | proved | `C44_frequencies` (Runs) | For every random stream: induction over realizations with C28. |
| C45 Each realization uses in-range parameters and a freshly fitted model | proved | `C45_realizations`, `C45_ranges` (Runs) | Same; parameters within their ranges, fitted model per realization. |
| C46 Deterministic runs use the means and give an indicator | proved | `C46_means`, `C46_deterministic` (Law, Runs) | Same for the deterministic run. Means: C42 (`C46_means`). |
| C47 filter_obs removes exactly the observations near wells | proved | `C47_filter` (Utilities) | Induction over observations and wells. |
| C48 filter_obs conserves information | proved | `C48_information` (Utilities) | Precision-weighted sums over merged runs of duplicates; induction. |
| C49 Averaged duplicates are minimum-variance averages | proved | `C49_minimum_variance` (Utilities) | Quadratic minimisation (Cauchy–Schwarz) for each group. |
| C50 filter_obs leaves no duplicates and is idempotent | partial | `C50_idempotent_partial`, `C50_fails_for_separated_duplicates` (Utilities) | Idempotence by induction over the merge loop; refuted for separated duplicates. |
| C51 filter_obs failure | proved | `C51_error`, `C51_groups` (Utilities) | Case analysis: only a zero standard deviation in a group of duplicates raises. |
| C52 Summary statistics are consistent | proved | `C52_statistics`, `C52_empty_column` (Utilities) | Sorted lists, median by counting, variance inequalities. |
| C53 Impact curve is the sorted exceedance curve | proved | `C53_impact`, `C53_range` (Visualize) | Sorting and counting over the grid; monotone curve from the total area to zero. |
| C54 Reported decile areas are exceedance areas | partial | `C54_table_partial`, `C54_fails_always` (Visualize) | `decile_line`, `decile_none`: position of the first probability at or below the threshold in the sorted curve; every line of the table, both cases. |
| C55 Deterministic capture-zone area | proved | `C55_area` (Visualize) | Counting nodes above one half. |
| C56 Empty capture zones are refused | proved | `C56_empty`, `C56_probability_plot`, `C56_smoothed_plot` (Visualize) | Case analysis: which plots raise for an empty field. |
| C57 Head contour maps survive dry nodes | partial | `C57_heads_partial`, `C57_fails_at_dry_nodes`, `C57_potential` (Visualize) | Map grid as nested loop; NameError branch characterised exactly. |
| C58 Rejected arguments have no effect | proved | `C58_no_effect` (Oneka) | Decision logic over Python values; the effect list of a rejected call is empty. |
| C59 Accepted arguments are usable | partial | `C59_accepted_partial`, `C59_fails_for_default_smooth`, `C59_other_defaults_partial`, `C59_fails_for_nrealizations` (Oneka) | Exact characterisation of the accepted arguments (`Acceptable`); defaults refuted. |
| C60 A finished run archives its inputs and result | proved | `C60_archive`, `C60_field`, `C60_no_archive` (Oneka) | Effect list of a returned call ends with the archive; loading gives inputs and result. |
| C61 Archives of different runs do not overwrite each other | partial | `C61_distinct_partial`, `C61_fails_same_second`, `C61_fails_broken` (Oneka) | Injectivity of the time stamp; same-second collision refuted. |
| C62 Net flow through a circle balances recharge and pumping | proved | `C62_balance` (Aquifer) | Circle integral of the discharge: Mathlib (mean value of a quadratic, residue of the wells). |
| C63 Constructing a model is independent of other models | partial | `C63_six_entries`, `C63_constructor`, `C63_setter`, `C63_frame`, `C63_default_zero_partial`, `C63_fails_for_in_place_edits` (CoefHeap) | Heap of coefficient arrays; frame property by induction over histories; refuted for in-place edits. Constructor and setter: exactly the lists of six entries, every argument under its own name. |
| C64 Traces clear of singularities return | proved | `C64_returns_unless_singular` (Wells) | C20 with the growth bound of the fitted velocity away from wells and dry spots. |
| C65 What can abort a run | proved | `C65_only_parameters_raise`, `C65_interrupts_are_swallowed` (Runs) | Case analysis over the stages of a realization; the tracer swallows what the velocity raises. |
| C66 The impact plot draws the whole curve between 0 and 1 | proved | `C66_drawn` (Visualize) | Axis limits and the drawn polyline against C53. |
| C67 quick_capture_zone cannot draw | proved | `C67_quick` (Visualize) | The argument check of the called function rejects every call made by `quick_capture_zone`. |
| C68 The archived field is the frequency of capture | proved | `C68_stochastic`, `C68_deterministic` (Oneka) | C44/C46 composed through the driver and the archive. |
| C69 Reports are about the archived result | proved | `C69_stochastic`, `C69_deterministic`, `C69_shown` (Report) | Summary tables, deciles, areas composed through the driver (C52–C55). |
| C70 Complete list of reasons for failing | proved | `C70_raises`, `C70_diverges`, `C70_returns`, `C70_few`, `C70_fit` (Causes) | Case analysis over all stages of the driver; contracts of the linear algebra; every reason is realised by an example. |
| C71 The log records every argument | proved | `C71_log`, `C71_once` (Report) | The log entries of an accepted call, as a sublist relation; independent of later stages. |
| C72 A second well one metre east of the rim makes a call run forever | proved | `C72_hangs` (Causes) | The trace that starts on the second well has NaN velocity (C21) and the driver inherits it. |
| C73 Exact recording rule of the probability field, for every umbra | proved | `C73_nodes`, `C73_weights`, `C73_never_overstates` (Reach) | Refinement of a second abstract machine that also keeps the reach of the grid; induction over histories. |
| C74 What the nodes of a finished run count, for every umbra | proved | `C74_stochastic`, `C74_deterministic`, `C74_archived` (Reach) | C73 composed through capture zone, run, driver and archive. |
| C75 A run of a data module records exactly the constants of the module | proved | `C75_archive`, `C75_log` (Runme) | C60, C71 composed through `main`; the positional arguments against the table of names. |
| C76 Failing data modules leave no trace | proved | `C76_missing_module`, `C76_import_fails`, `C76_missing_constant`, `C76_rejected` (Runme) | Case analysis of `main`. |
| C77 Each run has its own log file | partial | `C77_own_partial`, `C77_history`, `C77_fails_in_one_process`, `C77_fails_same_second`, `C77_separate_partial` (Runme) | Induction over sequences of runs and process restarts with the list of attached handlers. |
| C78 All shipped data modules can be run | proved | `C78_raises`, `C78_diverges`, `C78_returns` (Runme) | Data modules transcribed; rational certificates (seven wells-free observations, interpolation certificate against conics) checked by the kernel, lifted to ℝ, then C70. |
| C79 Step sizes are controlled: retries shrink, growth is at most ninefold | proved | `C79_control`, `C79_steps`, `C79_vertices` (Backtrace) | `C79_control`: bounds of the factor in `proposal` (the step-size rule of `Adaptive`, to which `C24_code_is_method` ties the code). `C79_vertices`: loop invariant `80 t + 1 ≤ 9ⁿ`, `dt ≤ 9ⁿ/10` for arbitrary velocity functions; the steps of a returning trace by induction over the adaptive integration (`adaptive_steps`, times and steps as multiples of the duration, so both signs at once). |
| C80 Traces follow the exact pathline, and converge to it as maxstep decreases | proved | `C80_accuracy`, `C80_follows`, `C80_convergence` (Accuracy) | One Runge–Kutta step is compared with the straight step (stage by stage, `trial_near`), the straight step with the exact solution (Grönwall's inequality, `straight_near`); loop invariant `‖xy − X t‖ ≤ 22 maxstep (exp (L t) − 1)`. The acceptance rule and the step-size rule bound the steps (`steps_short`); returning is reduced to C20 by comparing with the velocity cut off outside the tube (`returns_short`). Exact real arithmetic. The order of the bound is one, not five: the code's acceptance test bounds the segment length, and `tol` only through the estimate, from which no rigorous bound follows. |
| C81 Capture-zone traces lead upstream through the model of their realization | proved | `C81_trace`, `C81_realization`, `C81_call` (Upstream) | The trace over floats with inf and NaN is shown to be a trace over the reals (`backtrace_unlift`: a NaN never leads to an accepted step, and the velocity function answers finite numbers or NaN at finite places), to which C19 applies; the field is identified with the gradient by C31, C32 and C34 (`upstream_eq`). End to end through C68 (`C81_call`). |
| C82 The library's own traces follow the exact pathlines of its fitted models | proved | `C82_follows`, `C82_realization` (Pathlines) | C80 for the finite part of the library's velocity function, which answers at every place of the tube; a trace over the reals without warning is a trace over floats with inf and NaN (`backtrace_lift`). Examples: a year upstream from a well, with the closed pathline `sqrt(r0² + 2ct)`; a whole realization in uniform flow. Exact real arithmetic. |
| C83 Random parameters have the stated distributions | proved | `C83_uniform`, `C83_triangular`, `C83_run` (Law) | The set of draws below a threshold is an interval whose end is the distribution function (`tri_le_iff`), so its Lebesgue measure is known. numpy's generators are modelled by their algorithms (inverse distribution function, Model/Variate.lean). For runs: C45. Independence of the draws themselves is numpy's and is not modelled. |
| C84 Selecting the target, and runs that compute nothing | proved | `C84_from_the_end`, `C84_outside`, `C84_spacing`, `C84_none` (Sequence) | Case analysis of the list index (`getWell_negative`, `getWell_outside`) and of the constructor of the field. oneka() itself rejects such targets (C59); this is about the two functions called directly. |
| C85 Realizations form a reproducible and independent sequence | proved | `C85_prefix`, `C85_failure`, `C85_independent` (Sequence) | The loop of m+d realizations is the loop of m continued by d (`loop_add`, induction); weights by the loop invariant `loop_spec`. A realization is determined by its own random numbers (`realized_unique`). |
| C86 Zeros pass the argument checks but cannot be computed with | proved | `C86_fit`, `C86_no_wells`, `C86_trace`, `C86_duplicates`, `C86_zero`, `C86_porosity`, `C86_no_step` (Unusable) | The weighted system is assembled over reals with inf and NaN: a zero standard deviation, or a well at the observation, gives a non-finite row, which `lstsq` rejects (`LinAlg.Strict`). Traces: a non-finite velocity makes every trial step fail the acceptance test (`trial_rejected`), by fixpoint induction the trace never steps. Composed through the driver. |
| C87 Weights stay within bounds in floating-point arithmetic | proved | `C87_bounds`, `C87_total`, `C87_exceptions` (Rounding) | The model of `ProbabilityField` over floating-point numbers (`Fl`: 53 binary digits, round to nearest even, unbounded exponent; `Py/Round.lean`). Rounding is monotone and leaves floats alone, so an entry that does not exceed the total still does not after both were increased (`step_held`, induction over the history). Shapes and exceptions: the arrays are handled in the same way in any arithmetic (`Lemmas/FlAny.lean`). |
| C88 Growing the grid in floating-point arithmetic | proved | `C88_expand`, `C88_returns`, `C88_hangs_at_large_coordinates`, `C88_hangs_for_a_track_through_the_origin`, `C88_first_box_on_the_edge` (Rounding) | Fixpoint induction on the growth loops in any arithmetic (`growLow_returned`, `growLow_stuck`); termination: each pass moves the edge by at least 3/4 of a spacing (`growLow_returns`), and the edges stay within 4 spacings of the coordinates (`Near`, invariant over the history). |
| C89 The probability field computed with floating-point numbers agrees with the exact one | proved | `C89_accuracy`, `C89_exact_weights`, `C89_same_as_exact`, `C89_origins` (Rounding) | Layout: coordinates are multiples of a unit and small enough to be exact (`Axis.Fits`), so the float field is the real field entry by entry (`expand_fl`, `Crisp`). Distances: forward error analysis of `distancesquared` (`fl_near`). Window of `insert`: monotone rounding of the exact index. Composed over histories (`fl_history`) with the rule of C73. Exact weights: multiples of a power of two (`accumulate_exact`). |
| C90 A trace covers its duration in floating-point arithmetic | proved | `C90_duration` (RoundingTrace) | The tracer over `Fl` with an arbitrary C library (`Py/RoundMath.lean`). Invariant of the loop: the clock is positive or zero and at most D + ulp D; clipping makes `t + (D - t)` round to within an ulp of D (`trace_time_fl`, `Lemmas/FlTime.lean`). |
| C91 Traces computed with floating-point numbers follow the exact pathline | proved | `C91_accuracy`, `C91_follows` (RoundingTrace) | Forward error analysis of the seven stages (`Lemmas/FlRK.lean`), then the Grönwall argument of C82 with rounding terms (`accuracy_fl`, `Lemmas/FlAccuracy.lean`). Consecutive vertices are at most `H` in time and `maxstep` (and a rounding) apart. `C91_follows`: the rounded space step bounds the time step (`ds_ge_fl`, `FollowsFl`), together with C92 for the number of steps. |
| C92 Backtraces end in floating-point arithmetic | proved | `C92_returns` (RoundingTrace) | Two counters as in C21: every pass either accepts a step that is not too short, or shrinks the step by a fixed factor; the lower bound for accepted steps survives rounding (`nextDt_fl_between`), and Sterbenz' lemma covers the clipped last step (`sub_exact_fl`, `two_counters_fl`, `returns_fl`; `Lemmas/FlTerminate.lean`). |
| C93 Potentials, heads, discharges and velocities are accurate in floating-point arithmetic | proved | `C93_discharge`, `C93_potential`, `C93_head`, `C93_velocity` (RoundingAquifer) | The aquifer model over `Fl`. A calculus of forward errors (`Err`, `Lemmas/FlErr.lean`: an error of c roundings of size S, through sums, products, quotients), by induction over the wells (`err_discharge`, `err_potential`); square root and the transition between the two head formulae, which agree to second order there (`branch_gap`, `head_near`, `velocity_fl`). |
| C94 Traces of the library's models follow the exact pathlines in floating-point arithmetic | proved | `C94_follows` (RoundingAquifer) | C93 in every point of the tube makes the library's velocity an approximating program for `C91_follows`. Example: a year upstream from a well, within 24 m of the closed pathline. |
| C95 The archived capture probabilities are those of the exact pathlines, up to a stated precision | proved | `C95_track`, `C95_captures`, `C95_call` (CaptureExact) | C82 with the strides of the trace (`strides`: consecutive vertices are different, at most `H` and less than `maxstep` apart): every time belongs to a stride, the pathline moves at most `M H` in it (mean value inequality), a point of a segment is less than `maxstep ≤ M H` from its first vertex (`near_iff`); then C68 for the counts. Example: a call with 100 realizations, half with flow from the east and half from the north. Exact real arithmetic. |
| C96 What the archived capture frequencies estimate, and how accurately | proved | `C96_returns`, `C96_binomial`, `C96_converges`, `C96_error`, `C96_call` (Statistics) | `CapturedWith`/`ReturnsWith` (`Spec/Statistics.lean`) say of the numbers of one realization that it can be carried out and captures a place. They are shown to be measurable sets, through the whole model: the samples, the fit (which the contract of the linear algebra determines: `fit_determined`), the velocities, the loop of the tracer (`meas_backtrace`, by induction on the number of passes, the result being a countable union). C44/C45/C70 reduce the weight of a run to a count over realizations, then independence: product formula, binomial law, strong law of large numbers, Hoeffding's inequality. Example: a call in which the sign of a normal number decides where the flow comes from, so that the weights of the nodes east of the well are binomial with p = 1/2. Exact real arithmetic. |
| C97 The law of the flow in a realization | proved | `C97_coefficients`, `C97_potential`, `C97_discharge`, `C97_average` (Normal) | By C35/C40 the fit of the drawn model is `(ev, cov)` with `cov` positive definite; the coefficients are `ev + B z` with `B Bᵀ = cov` (`NormalGen.Factors`, the contract of `multivariate_normal`), so their characteristic function is that of Mathlib's `multivariateGaussian ev cov`; potential and discharge are affine in the coefficients. The averages by the strong law of large numbers. Existence of a realization that can be carried out is shown in the example. Exact real arithmetic. |
| C98 The log accounts for every observation | proved | `C98_removed`, `C98_accounts`, `C98_raises`, `C98_call` (FilterLog) | `filterLog` models every `log.info` of `filter_obs`, in order, including the order of `duplicate`/`averaged` lines and what has been written when ZeroDivisionError is raised. `Props/FilterLog.lean`: removed entries = filter by distance (induction on observations and wells); duplicates by the grouping of C47 (`Grouping` is unique); the raise case by following the loop to the culprit; `C98_call` composes with the course of a returning call. |
| C99 The summary table shows the statistics | proved | `C99_table`, `C99_lengths`, `C99_wide_numbers`, `C99_call` (Text) | `Model/Text.lean`: `summaryText` builds the table character by character; `Py/Format.lean` models `'{:.kf}'`, `'{:,.kf}'`, `'{:+.ke}'`, `'{:d}'`, padding and centring (round to nearest, ties to even, of the exact value). The specification reads texts back (`readNumber`, `Shows`, `cell`: character positions) and does not mention the formatter. Proof: reading inverts printing (induction on digits), rounding error of `roundEven`, lengths from digit counts, slices of concatenations. |
| C100 The log shows the numbers of the run | proved | `C100_realization`, `C100_deterministic`, `C100_deciles`, `C100_area`, `C100_observations`, `C100_arguments`, `C100_small_numbers` (Text) | `LogLine.messages` gives the text of every log entry, `callText` all messages of a call (returning, raising or endless). `Props/Text.lean`: the messages decompose into fixed labels and fields that read back (`Shows`) as the logged numbers; positions by induction on the effects of the call; which numbers these are is C68, C69, C71. |
| C101 What the log says about calls that fail or never return | proved | `C101_stochastic`, `C101_deterministic` (Endless) | The loops over the starting angles and over the realizations a second time, returning what has been logged when they hang (`endlessTraces`, `endlessRealization`, `endlessLoop`, used only when the first ones are `none`). Induction over the starting angles and over the realizations, for every ending of `oneka`. `Stalled` (Spec/Run.lean) says what is known of the realization that hangs. Uses C70, C72. |
| C102 The impact curve in floating-point arithmetic | proved | `C102_curve`, `C102_order`, `C102_drawn` (FlReport) | `create_impact_plot` over floating-point numbers (`Model/FlReport.lean`: quotient, sort, products and comparisons rounded; `spacing**2` is whatever the C library returns). Induction over the history shows that entries are whole numbers at most the total, up to saturation at 2^53 (`run_kept`, `counted_add`); distinct fractions with a denominator below 2^52 are further apart than two rounding errors (`frequency_lt`); sorting commutes with a monotone function. |
| C103 Rounding does not change the decile table | partial | `C103_lines_partial`, `C103_fails_at_exact_levels`, `C103_other_lines` (FlReport) | `np.linspace(0.05, 0.95, 19)` is modelled as numpy computes it (`flLinspace`) and its 19 values are computed exactly (`Lemmas/FlThresholds.lean`): fourteen are the numbers nearest to (k+1)/20 and five (0.40, 0.45, 0.50, 0.55, 0.80) are one unit lower. A frequency with denominator up to 2^47 that differs from (k+1)/20 differs by more than the errors (`compare_threshold`), so the table can go wrong only where they are equal. There it does, in the five lines: `C103_fails_at_exact_levels` (partial, the claim is false; for instance the line for 0.50 of a run with two realizations). |
| C104 The impact plot shows the areas in acres | partial | `C104_ordinates_partial`, `C104_fails_below_one_acre`, `C104_fails_small_zone`, `C104_fails_in_calls` (Acres) | The ordinates passed to `semilogy` are modelled with the floor division of the code (`inAcres`). The bounds on the ordinates and their order follow from C53 (`C104_ordinates_partial`). They need not be positive: below one acre they are 0, which a logarithmic axis does not show (`C104_fails_below_one_acre`), and a zone below one acre gives an empty plot (`C104_fails_small_zone`, `C104_fails_in_calls`). Partial: the claim is false. That matplotlib drops non-positive values from a logarithmic axis is not modelled. |
| C105 Rounding does not change the capture zones, up to a stated distance | proved | `C105_starts`, `C105_track`, `C105_frequencies` (RoundingZone) | The calls on the field are those of C89 for the tracks that the rounded traces give (`zoneLoop_run`). C94, with strides (`StrideFl`): each exact pathline stays near the segments of its trace and conversely (`near_iff_fl`, as in C95), so a node within the umbra of one is within the umbra, give or take `δ`, of the other; C89 adds the rounding `η` of the distance tests and makes the weights exact. Starting points: relative errors of `np.linspace`, cosine and sine (`C105_starts`). Example: two realizations, a trace of a year each. The models of the realizations are given floating-point numbers, however accurate the fit and the draw were. |
| C106 The fit is an unbiased estimate of the flow with the stated covariance, and the best linear one | partial | `C106_confined_partial`, `C106_fails_unconfined` (Estimator) | Confined levels enter the normal equations linearly (`fit_confined`): coefficients = S(z/std + const) with S A = 1 for the weighted design matrix A and S Sᵀ = (AᵀA)⁻¹, the returned matrix; means and covariances are linear (`linear_mean`, `linear_cov`). Gauss–Markov: an estimate right for all confined flows has weights β with βA = φ (`unbiased_weights`, from flows with a large constant term), and |β|² ≥ φ(AᵀA)⁻¹φ (`best_weights`). Unconfined: six sites are interpolated, and E[½K((Z−b)²+s²)] = ½K(h²+2s²): `construct_fit` adds the correction ½K·s² for a *given mean*, but the observed level already scatters around the true one. Missing: an unbiasedness statement for unconfined levels (false). |
| C107 Raising a measured level raises the fitted potential there | partial | `C107_confined_partial`, `C107_fails_at_thickness` (Estimator) | The change of the fitted weighted value is the diagonal element of the projection A S, which is positive because the row has the constant 1 (`leverage_pos`). Counterexample at the thickness: six sites are interpolated, and the potential given to an observation drops by ½K·s² there, because the correction is added only to unconfined levels. Missing: raises that start unconfined (false in general). |
| C108 Random parameters stay in their range in floating-point arithmetic | partial | `C108_draw_partial`, `C108_uniform`, `C108_positive`, `C108_fails_triangular`, `C108_mean_partial`, `C108_mean_pair`, `C108_fails_mean` (FlVariate) | `generate_random_variate` and `compute_variate_mean` over floating-point numbers (`Model/FlVariate.lean`; numpy's formulas, every operation rounded). For a uniform draw, `low + (high - low) * u` with `u ≤ 1 - 2^-53` rounds to at most `high` (`draw_le`). For a triangular draw, the root of the rounded square of a float is at most the float (`sqrt_square`), which bounds the root by the base and keeps signs; relative errors of the products and the root give the distance to the formula of the same branch, and where the rounded ratio takes the other branch than the exact one, both formulas are near the mode (`tri_near`). Counterexamples are computed by hand. |
| C109 filter_obs decides and averages correctly in floating-point arithmetic | proved | `C109_agrees`, `C109_places`, `C109_critical` (FlUtilities) | `filter_obs` over floating-point numbers (`Model/FlUtilities.lean`; `np.hypot` and `**2` are functions of the C library with the contract `LibObs.Accurate`, which correct rounding meets: `nearestObs_accurate`). Differences of floats have a relative error, so computed distances have a relative error below 2^-51 (`dist_near`); a comparison with a limit that is not critical comes out as in exact arithmetic (`clear_iff`), so both computations remove and group alike (induction over the list), and sums, quotient and root of a group obey the error calculus of C93 (`group_near`). `C109_critical` shows that the condition is needed. |
| C110 The covariance matrix tells how far the fitted potential can be off | partial | `C110_range`, `C110_solver`, `C110_site`, `C110_levels_partial`, `C110_damped_partial`, `C110_fails_unconfined` (Stability) | By the normal equations the misfit of any flow is the least misfit plus d'Gd, with d the difference of coefficients and G the normal matrix (`sse_minimum`); Cauchy and Schwarz for G and its inverse give the bound and the direction G⁻¹φ attains it (`inverse_cauchy`, `inverse_attained`). At an observation: the leverage of a row is at most one (`inverse_leverage`). Changed confined levels: the coefficients are a linear function of the levels, and the fitted values a projection of them (`projection_short`). The contract of an inexact solver is `LinAlg.Within η`. Missing: changes of unconfined levels (false: `C110_fails_unconfined`, because the potential is quadratic in the level there). |
| C111 Rounding disturbs the fit little, outside a narrow band of levels | proved | `C111_raises`, `C111_rows`, `C111_fit`, `C111_determined`, `C111_critical` (FlFit) | `construct_fit` over floating-point numbers (`Model/FlFit.lean`; `lstsq`, `matmul` and `inv` are arbitrary functions, with the contract `FlLinAlg.Within η` for `lstsq`). The error calculus of C93 gives the errors of expected potential, standard deviation and rows (`flFosm_near`, `flRow_near`). The exact residual is orthogonal to the regressors; a solution of a perturbed system that nearly minimises its residual is then close in the norm of the exact system (`perturbed`, `flFit_close`), and the covariance matrix turns this norm into standard deviations of the potential (as in C110). `C111_critical` shows that the condition on the levels is needed. The accuracy of the returned covariance matrix is C114. |
| C112 What misfit and rounding of the fit mean for discharge, velocity, pathlines and traces | proved | `C112_discharge`, `C112_velocity`, `C112_pathline`, `C112_rounded`, `C112_traces` (Rivals) | The discharge is linear in the coefficients, so the argument of C110 applies to it (`discharge_diff`, `within_spread`, `inverse_attained`). The saturated thickness is min(√(2Φ/K), T), which changes by at most the fraction by which Φ changes (`saturated_near`); quotients give the velocity (`velocity_near`). Pathlines: Grönwall's inequality as long as the second pathline is in the tube, and a first time of leaving leads to a contradiction (`pathlines_near`). Fit and trace with rounding: `flFit_quad` (C111) bounds the coefficients in the norm of the normal matrix, `velocity_near` turns this into velocities, C93 adds the rounding of the velocity and C91 the tracer. |
| C113 Whole runs in floating-point arithmetic | proved | `C113_models`, `C113_stochastic`, `C113_deterministic` (FlRun) | `Model/FlRun.lean` is the whole of both run functions over `Fl`. Induction over the realizations shows that the loop is the loop of C105 over the models drawn (`flLoop_eq`, `flLoop_models`), and case analysis which models are drawn (`flRealization_iff`, `flRealized_iff`). The proofs of C105 are stated for any velocity function that approximates an exact one in the tube (`FollowsCore`, `followed_frequencies`); C93 gives the approximation for a given model (`rounded_core`), and C111 with C93 for a fitted one (`fitted_velocity`, `fitted_core`). |
| C114 Accuracy of the covariance matrix in floating-point arithmetic | proved | `C114_covariance`, `C114_variance`, `C114_correlations`, `C114_returns` (FlCovariance) | `Model/FlFit.lean` with contracts for `matmul` and `inv` (`Spec/FlCovariance.lean`). The errors of rows, products and inverse add up to a residual of at most `ω` times the sums of absolute products of regressors; by Cauchy and Schwarz and `Determined` this is at most `ω κ²` in the norm of the normal matrix (`form_bound`, `determined_vec`, `flFit_columns`). A column whose residual is that small differs from the column of the inverse by at most `ρ / (1 - ρ)` of its norm, which is a standard deviation (`column_near`, `flFit_inverse`), and the inequality of Cauchy and Schwarz for the inverse gives the entries. A singular matrix near the normal matrix would have a null vector that vanishes at all observations (`flFit_regular`). |
| C115 The project's own tests | proved | `C115_model`, `C115_potential`, `C115_head`, `C115_discharge`, `C115_velocity`, `C115_fit`, `C115_constructor`, `C115_expand`, `C115_distancesquared` (ProjectTests) | The data of the tests are copied into `Spec/ProjectTests.lean`. `Lemmas/LogBound.lean` gives rational approximations of logarithms with a bound on their error, from the series of `artanh`. The normal matrix of the test observations is rational; its exact inverse is given, and the kernel checks that their product is the identity. A correct `inv` must return it, and a correct `lstsq` the product with the right-hand side, whose only inexact part are the logarithms. Apart from the packages these are finitely many facts; they tie the model to values that were computed independently of this code. |
| C116 The aquifer functions neither overflow nor underflow | proved | `C116_potential`, `C116_discharge`, `C116_head`, `C116_velocity`, `C116_confined`, `C116_potential_accurate`, `C116_discharge_accurate`, `C116_head_accurate`, `C116_overflow`, `C116_underflow` (Binary64) | The code of `Model/Aquifer.lean` over a third kind of floating-point number, `B64` (`Py/Binary64.lean`): binary64 with gradual underflow, overflow, infinities and NaN; zeros have no sign. `Lemmas/Range.lean` follows two numbers through every operation: results are multiples of some `2^-g` and at most `2^k`. As long as `g ≤ 1022` and `k ≤ 1023`, which the sizes guarantee to the last operation of `compute_velocity` (`g = 781`, `k = 870`), rounding to binary64 is rounding to 53 digits. `C116_overflow` and `C116_underflow` show points where it is not. |
| C117 The probability field neither overflows nor underflows | proved | `C117_constructor`, `C117_history`, `C117_call`, `C117_bounds`, `C117_overflow` (Binary64Field) | The calculus of C116, applied to `Model/ProbabilityField.lean` over `B64`. Invariant of the histories (`FieldSame`): corners are multiples of `2^-92` and at most `2^180`; the number of columns is at most `(xmax - xmin + 2^50) 2^92`, because a turn of a growth loop that does not move the corner hangs (both arithmetics); weights are at most `2^94`, since adding `2^40` to `2^94` changes nothing (`Same.addWeight`). Crude as they are, these bounds keep every operation of `insert` in range (`g ≤ 503`, `k ≤ 910`). |
| C118 Backtraces neither overflow nor underflow | proved | `C118_velocity`, `C118_trace`, `C118_follows` (Binary64Trace) | The calculus of C116, applied to `Model/Backtrace.lean` over `B64`: velocities are multiples of `2^-781`, stages of `2^-985`, times and step sizes of `2^-142`, because steps are at least `2^-90` as long as time remains (from C92's invariant) and the last one is a difference of two such times (`Lemmas/Binary64Trace.lean`, `shadow_pass`). The loop is simulated pass by pass. `within Q` (Spec/Binary64.lean) is the velocity function that raises outside `Q`: a trace that uses it and ends without warning has called it in `Q` only. `C118_follows` combines this with C91 and C93. |
| C119 Capture zones neither overflow nor underflow | proved | `C119_zones`, `C119_frequencies` (Binary64Zone) | `Model/AnyCapturezone.lean` is `compute_capturezone` and its calls for any kind of numbers; with 53 digits it is the model of C105 (`zones_eq_flZones`), with `B64` it is the code in binary64. Angles and starting points by the calculus of C116 (`Lemmas/Binary64Zone.lean`, `angles_same`, `start_same`), traces by C118, the field by C117, along the loops over angles and models. `StaysIn` (Spec/Binary64.lean): the trace calls the velocity function in a region with ordinary coordinates only. `TrigRange`: the library's cosines and sines of the starting angles are not smaller than `2^-100` unless zero. `C119_frequencies` combines this with C105; a trace that follows an exact pathline stays in the tube around it (`stays_in_tube`). |
| C120 The log identifies the call | proved | `C120_values`, `C120_log` (Str) | `Model/Str.lean`: Python's `str` and `repr` of values; how a finite float is printed is a parameter (`PyText`), of which `PyText.Faithful` says what Python promises; printing 17 digits meets it (`seventeen_faithful`). `Lemmas/Str.lean`: the text of an object followed by a comma or closing bracket can be read in one way only, by induction over the object (`repr_unique`). The messages about the arguments are cut out of the log of C71 and compared one by one (`Lemmas/StrLog.lean`). The example shows two calls with different tolerances and the same log, so 0.01 cannot be 0. |
| C121 What the printed forms of Model and ProbabilityField tell | proved | `C121_model`, `C121_model_fails`, `C121_empty`, `C121_field`, `C121_field_fails`, `C121_empty_fails` (Str) | `PyModel.text`, `fieldRepr`, `fieldStr` and the constructors `makeModel`, `makeField` with positional arguments (`Model/Str.lean`). A text is a call with at most one list of arguments (`call_unique`, Lemmas/StrCall.lean), from `repr_unique`. `IsCall` (Spec/Str.lean) says what a call is: name, parenthesis, printed arguments separated by commas, parenthesis. |
| C122 The results do not depend on the origin of the coordinates | proved | `C122_traces`, `C122_model`, `C122_filter`, `C122_run`, `C122_call`, `C122_archive` (Shift) | `Spec/Shift.lean` says of each kind of input, result, log entry and figure what moving it means. The lemmas go through the model function by function (`Lemmas/Shift*.lean`): each commutes with the move; for the loop that may not end: if it returns, so does the moved one, by induction on the fixpoint, and conversely by moving back. `compute_shift` composes them to the whole computation, including logs, exceptions and divergence. Exact arithmetic (reals with infinities and nan). |
| C123 The results do not depend on the datum of the elevations | proved | `C123_model`, `C123_filter`, `C123_run`, `C123_call`, `C123_archive` (Datum) | As C122, with `Spec/Datum.lean` and `Lemmas/Datum.lean`: the base enters only through observed head minus base (`fosm_raise`); the weighted average of raised heads is the raised average because the sum of the weights is positive (`accumulate_den`). |
| C124 The results do not depend on the order of the wells | proved | `C124_model`, `C124_filter`, `C124_run`, `C124_law`, `C124_call`, `C124_archive` (Order) | `Spec/Order.lean` says what another order means and which results count as the same. Sums over wells do not depend on the order (`foldl_reorder`, exact arithmetic with infinities and nan, where addition still is commutative and associative); the draws of a realization are a permutation of the former (`drawPairs_perm`), as every accepted distribution takes exactly one draw or none whatever its position; then function by function as in C122 (`Lemmas/Order*.lean`). The law: the map that reorders the draws preserves the measure (`reorder_law`). |
| C125 Only the ratios of conductivity, porosity and discharges matter | proved | `C125_model`, `C125_variate`, `C125_run`, `C125_call`, `C125_archive` (Ratio) | `Spec/Ratio.lean` says what multiplying means for each kind of input, result and log entry. Potential and discharge are linear in discharges and coefficients also with infinities and nan (`XR.scale_add`, …), and the factor cancels against conductivity or porosity in head and velocity (`XR.scale_cancel`). The fit: with correct linear algebra its result is a function of the normal equations (`fit_determined`), which scale (`fitSys_times`); all its exceptions stay. Then function by function as in C123 (`Lemmas/RatioRun.lean`). |
| C126 A whole run neither overflows nor underflows | proved | `C126_filter`, `C126_variate`, `C126_fit`, `C126_stochastic`, `C126_deterministic`, `C126_frequencies`, `C126_report` (Binary64Run) | `Model/B64Run.lean` models the filter, the variates, the fit, both kinds of runs and the report in binary64, operation by operation; each is compared with the model of the same function with 53 digits and unlimited exponents (C109, C108, C111, C113, C115). The calculus of C116 (`Same`, `Rng`) bounds every intermediate result (`Lemmas/B64Filter.lean`, `B64Fit.lean`, `B64Run.lean`, `B64Report.lean`); zones are those of C119. numpy's linear algebra and normal draws are arbitrary functions that are finite on finite numbers (`Extends`, `NormalExtends`). `C126_frequencies` combines this with C113. |
| C127 How the umbra, the spacing and the number of paths act on the result | proved | `C127_stochastic`, `C127_deterministic`, `C127_course`, `C127_spacing`, `C127_archived` (Sensitivity) | Two runs are compared step by step (`Lemmas/Sensitivity.lean`): the traces do not depend on the field, and start number `j` of `npaths` is start number `k j` of `k npaths`, so the log of one run lies within the log of the other. What is recorded where (C74: a track passes within the umbra at a time when the position is within reach) is monotone in the umbra, in the spacing and in the tracks seen so far. `C127_spacing` follows from C44 and equal logs. |
| C128 Results do not depend on the orientation of the axes | proved | `C128_model`, `C128_filter`, `C128_backtrace`, `C128_course`, `C128_stochastic`, `C128_deterministic`, `C128_archived` (Turn) | `Lemmas/Turn.lean` shows that the code's formulas commute with the two generating reflections, in real arithmetic extended by inf and NaN; the two norms of `compute_backtrace` do not change, so all branches are the same; the weighted system of the fit is multiplied by a signed permutation matrix, and `lstsq` and `inv` by their specification give the permuted solution. `Lemmas/TurnRun.lean` shows that start `k` of the one run is start `σ k` of the other, so that the logs contain the same tracks in another order. Weights then follow from C44/C46 (a count of realizations with a track within the umbra) and nodes from C74; both are independent of the order of the tracks. |
| C129 Order, duplicates and precision of the observations | proved | `C129_fit_order`, `C129_run_order`, `C129_filter_order`, `C129_call_order`, `C129_archive_order`, `C129_order_matters`, `C129_duplicates`, `C129_duplicates_run`, `C129_unconfined_matters`, `C129_filter_precision`, `C129_fit_precision`, `C129_run_precision` (Observations) | The fit is determined by the normal equations (`fit_determined`), whose matrix and right hand side are sums over the observations: invariant under rearrangement, unchanged if confined duplicates at one place are replaced by their weighted mean (their rows are proportional with factors 1/std, and the levels enter linearly), divided by c^2 if all standard deviations are multiplied by c. Runs and calls depend on the observations only through the fit, the summary (also symmetric) and the markers in the figures; shown by walking through `compute` with a relation between effects. Counterexamples: `C129_order_matters`, `C129_unconfined_matters`. |
| C130 How the duration, the tolerance and the step limit act on the result | proved | `C130_common`, `C130_uniform`, `C130_track`, `C130_captures`, `C130_stochastic`, `C130_archived`, `C130_not_monotone` (Duration, DurationExamples) | (1) by induction on the relation `Adaptive` (Spec) that both traces satisfy: steps that end before the shorter duration are decided alike. (2) both traces are subdivisions of the same straight line (C23). (3) by C95: each trace is within d of the exact pathline, whose part up to the shorter duration is common; the random numbers do not depend on the settings of the traces, so the models agree. (4) by computing the first two trial steps of both runs exactly (`C130_not_monotone`). |
| C131 What is recorded is water on its way to the well | proved | `C131_delivers`, `C131_captures`, `C131_start`, `C131_archived`, `C131_enters`, `C131_pumping`, `C131_misses` (Arrival, ArrivalExamples) | The path of a particle that arrives at a starting point, run backwards, solves the same differential equation as the upstream pathline of C95; uniqueness (Gronwall, continued along the tube in which the velocity is Lipschitz) makes them equal, so that passing a place and delivering water from it are equivalent. Entering: the squared distance from the well stays below a shrinking bound (comparison of derivatives). Pumping: superposition (C31), the discharge of the well has the radial component Q/(2 pi r). Counterexample: an idle well in a uniform flow (`C131_misses`). |
| C132 A stochastic run in which every draw takes its mean | proved | `C132_course`, `C132_result`, `C132_calls`, `C132_archived`, `C132_wide` (Certain, CertainExamples) | With the means as variates the model, the fit and the coefficients of each realization are those of the deterministic run, and the traces do not depend on the field they are recorded in; induction over the realizations. Weights: C74 (which tracks are recorded where, given what had been reached before); from the second realization on everything has been reached. Counterexample with an exactly consistent uniform flow and four tracks of one step each (`C132_wide`). |
| C133 The probability at the well itself, and realizations that capture nothing | proved | `C133_realization`, `C133_dry`, `C133_archived`, `C133_hole`, `C133_diluted` (NearWell, NearWellExamples) | The first vertex different from the start follows a vertex equal to it, so that the track has a proper segment that begins at the start, rw + 1 from the well; triangle inequality. Conversely a captured node needs a proper segment. Weights: C68 and C74. Dry starts: the first velocity raises (C33), and then the trace is the start (C17). Counterexamples: the uniform flow of C132 with an umbra of 1 m, and with drawn coefficients that make every other realization dry (`C133_hole`, `C133_diluted`). |
| C134 What the last line of the program means | proved | `C134_done`, `C134_meaning`, `C134_files`, `C134_no_answer`, `C134_profile` (Script) | The program is modelled as a run with effects and an ending. Case analysis of the course of `main` (C76), with C75 for the archive; the lines printed by `main` are determined in all cases. |
| C135 The choice of units does not matter | partial | `C135_model`, `C135_fit`, `C135_filter_partial`, `C135_fails_filter`, `C135_trace_partial`, `C135_deterministic_partial`, `C135_stochastic_partial`, `C135_fails_start`, `C135_fails_acres` (Units) | Conversion of every argument and result (`Spec/Units.lean`). Model: the scaling of reals, infinities and nan through each operation. Fit: the weighted design matrix in the other units is the product of the first with an invertible matrix, so the unique least-squares solution converts (with a shift of the constant coefficient by the logarithms of the wells), and so does the inverse Gram matrix. Tracer: simulation of the two loops, step by step, by fixpoint induction. Calls: C68 for both calls, related through the fit, the draws and the traces. |
| C136 What the flag confined does | proved | `C136_velocity`, `C136_call` (Confined) | A third velocity function that raises wherever the aquifer is not confined (`Spec/Confined.lean`); both functions of the code agree with it wherever it does not raise, so by the lemma on interrupted traces (`undisturbed`, `interrupted_prefix`) its trace is a prefix of both traces, and equal to both if it is complete. Models and fits do not read the flag. The fields follow from C74. Example: two calls in uniform flow with a large potential, whose traces are complete. |
| C137 A well that neither pumps nor injects has no effect | proved | `C137_model`, `C137_fails_at`, `C137_filter`, `C137_call` (Idle) | Over the reals with infinities the term of the idle well is 0·finite = 0 away from its place, and 0/0 = nan at it. A third velocity function raises at that place (`Spec/Idle.lean`); as for C136, its trace is a prefix of both traces, and equal to both if complete. Retained observations: by C47. The fields follow from C74. Example: the call of C136, and the same call with an idle well, whose traces are complete. |
| C138 What the target does | proved | `C138_fit`, `C138_call`, `C138_flow`, `C138_traces` (Target) | The expected surface: both fits minimise the same misfit, whose minimiser is unique as a surface (as C39). Its covariance: the normal matrices (C40) are the same bilinear form on surfaces, written about two origins, so the surface dual to a place is the same. Equal surfaces have equal slopes, hence equal discharges, heads and velocities. Traces: C81. Examples: calls with two pumping wells, for 100 realizations and for one. |
| C139 What the result of a call depends on | proved | `C139_result`, `C139_archived` (Repro) | `Spec/Repro.lean` says when two calls pose the same problem. The course of each call (all seven ways it can go) is compared step by step: both filters return the same list, so both make the same run; the log up to there consists of texts, arguments and filter lines only. Example: the example call, and one with another name, buffer, smoothing, spelling of numbers, clock and one more observation near the well. |
| C140 How the decile table is related to the capture zones of the realizations | proved | `C140_stochastic`, `C140_deterministic` (Zones) | By C68 the archived weight of a node is the number of realizations that capture it; counting pairs of realizations and nodes in two ways gives the mean (`count_pairs`), and the bounds follow node by node. The lines of the table by C69. Example: the example call, with 100 realizations and with one. |
| C141 Of the wells only the sum of the discharges at every place matters | proved | `C141_model`, `C141_only`, `C141_filter`, `C141_call` (Merge) | Sums over the wells are linear in the discharges, place by place (`sum_sources`). Converse: near a place the potential is the sum of the discharges there times a logarithm that tends to minus infinity, plus something continuous. Calls: two realizations with the same sums have the same fit and so the same model but for the wells; the traces as in C137. Examples: a well split into two, and an idle well. |
| C142 How wide the capture zone of a well in a uniform flow can be | proved | `C142_streamline`, `C142_width`, `C142_stagnation`, `C142_delivers`, `C142_captures`, `C142_archived` (Width) | The stream function (distance from the axis times U, minus Q/(2 pi) times the bearing) has derivative zero along a path that does not end on the axis, the bearing being the argument of a complex number off the negative real half-line; the distance from the axis is antitone, and a bearing turns by at most pi. Below the stagnation point the distance downstream has a positive derivative. Calls: with C131. Examples: a pumping well in a flow to the east, its water existing by Picard-Lindelöf; a call in which all realizations have a uniform flow. |
| C143 What the smoothed probability map shows | proved | `C143_filter`, `C143_monotone`, `C143_map` (Smooth) | The filter of scipy is modelled as two passes with a normalised kernel and zeros beyond the border (Model/Smooth.lean; trusted to be what scipy does, in exact arithmetic). The two passes together are one average over a square (`filter_entry`), since the weights factor. A weighted average with positive weights is 0 (1) exactly if all its terms are. Sums: exchange of the order of summation; a shift of the table loses what it pushes over the border. The map and the archive are about the same field (C69, C44). |
| C144 The dividing streamline of a well in a uniform flow | proved | `C144_divides`, `C144_near`, `C144_shape`, `C144_delivers`, `C144_captures`, `C144_archived` (Divide) | Along a path the stream function (distance from the axis times discharge, plus the share of the discharge of the well given by the bearing) is constant as long as the path is off the axis (C142); the axis can be reached but not crossed, and is handled with one-sided limits of the argument. Near the well `sin θ ≤ θ` puts everything inside. With C131 and C142 this bounds what a realization captures. The example is a whole call with a pumping well, whose exact pathline comes from the Picard-Lindelöf theorem. |
| C145 A well in an aquifer at rest: the fixed-radius formula | proved | `C145_paths`, `C145_volume`, `C145_delivers`, `C145_follows`, `C145_captures`, `C145_radius`, `C145_archived` (Still) | Along any path of water the squared distance from the well plus `2 κ t` and the direction from the well have derivative zero, so they are constant; conversely the ray run through at this rate is a path. That gives the exact description of what is delivered to a starting point; C131 turns it into what is captured and archived. For `C145_follows` the Lipschitz constant of the field near the ray is computed from the identity for distances under inversion in a circle. |
| C146 Straight pathlines are traced straight | proved | `C146_line`, `C146_trace`, `C146_rest`, `C146_recharge`, `C146_axis`, `C146_captures`, `C146_archived`, `C146_outward`, `C146_rays`, `C146_archived_rays` (Straight) | Loop invariant of the tracer: the present place is on the line and the velocity there is parallel to it; the six stages of a trial step are combinations of such velocities. For `C146_outward` the stages of a step from distance `ρ` in the field `c/ρ` are `ρ` times rational functions of `s = h c/ρ²`; bounds of these by simpler rational functions, whose numerators are polynomials without negative values for `s ≥ 0`, show that all stages are on the ray and that the step leads outward for every step size `h`. C68 gives what is captured and archived. |
| C147 How far a trace can lead | proved | `C147_range`, `C147_advances`, `C147_speed`, `C147_attained` (Speed) | Loop invariant: the progress in the direction is between the two bounds times the time covered. A step adds a combination of five velocities whose weights add to 1; the negative one is 2187/6784. The bound on the distance follows with the direction of the vertex itself. `C147_attained` computes the trace of a velocity function that turns round for one stage. |
| C148 Calls under python -O | proved | `C148_same`, `C148_returned`, `C148_logs`, `C148_negative_target`, `C148_few`, `C148_no_duration` (Optimized) | `onekaO` (Model/Optimized.lean) is `oneka` without its assertions. Equality of the two programs step by step; a negative index reaches the same well, and the loops read nothing else of it; for five observations there is always a conic through them, so the normal matrix is singular; for duration 0 the exits of a run (C70) are gone through one by one, and every trace has one vertex. |
| C149 How accurate the reported areas are | proved | `C149_cells`, `C149_zone`, `C149_deterministic`, `C149_stochastic`, `C149_upper`, `C149_pathlines`, `C149_at_rest` (Area) | The cells of different nodes are disjoint and cover the plane, so their number times their area is the measure of their union (`C149_cells`). A place within half a diagonal of a captured place is captured with an umbra wider by as much. Counts of nodes from C140 and C68, pathlines from C95. At rest: every place between the starting points and the fixed radius is within radius times pi / npaths of a ray; areas of disc and ring. |
| C150 How a track is described does not matter | proved | `C150_redrawn`, `C150_cut`, `C150_cut_matters` (Redraw) | Different descriptions are the relation generated by reversing, repeating and refining (Spec/Redraw.lean). Each keeps the set of near positions and the bounding box, so by C73 the nodes and records of a history do not change. Pieces: near the first piece there are nodes already if the umbra does not exceed the spacing; `C150_cut_matters` refutes it otherwise. |
| C151 A well fed by recharge: the catchment is the disc whose recharge equals the discharge | proved | `C151_catchment`, `C151_paths`, `C151_everything`, `C151_smaller`, `C151_velocity` (Rain) | Spec/Rain.lean states the situation. The discharge is radial, with strength (N/2 - q c/r2) times the offset, so r2 has the derivative (N r2 - 2 q c)/(porosity * saturated thickness): its sign cannot change (Gronwall), and in a confined aquifer the equation is linear and solved; existence of the path by differentiating the solution. About water, not traces: C131 relates what is delivered to what a run records. |
| C152 A run can be done in batches | proved | `C152_returns`, `C152_weights`, `C152_archived`, `C152_batches_matter` (Pool) | `Env.Pools` (Spec/Pool.lean) says which random numbers the batches get. Induction over the loop shows that the same realizations end alike and log the same on any field; weights from C44 (umbra at most the spacing) and C74 (any umbra; a place is within reach earlier in the longer run). Averages for three returning calls; `C152_batches_matter` follows from the refutation of C11. |
| C153 Curves that water crosses outward only bound the capture zone | proved | `C153_delivers`, `C153_line`, `C153_circle`, `C153_injecting`, `C153_archived` (Barrier) | The curve is the zero set of a differentiable function whose gradient has a positive product with the discharge there (Spec/Barrier.lean). The velocity is a positive multiple of the discharge, so along a path followed backward the function cannot become positive (comparison of derivatives at the boundary). Lines, circles and injecting wells are instances; the archived weights by C131. |
| C154 Treating the aquifer as confined never enlarges the capture zone | proved | `C154_faster`, `C154_slower`, `C154_delivers`, `C154_later`, `C154_captures`, `C154_enough`, `C154_archived`, `C154_calls` (Clock, Storage) | Both velocities are the same discharge divided by porosity and thickness. The potential does not increase along a path, so the saturated thickness is at least the one at the goal and at most the full one; the quotient of the thicknesses is continuous along the path, and the inverse of its integral is the change of clock that turns one path into the other (Lemmas/Clock.lean). Captures and archived weights by C131. For two calls: the realizations with the same index draw the same model (C68), so each of them that counts in the confined call counts in the other. |
| C155 Water is captured from higher heads only, and the fall of the potential bounds how far it comes | proved | `C155_path`, `C155_head`, `C155_no_return`, `C155_delivers`, `C155_captures`, `C155_archived` (Fall) | Along a path the potential changes by minus porosity times thickness times the square of the speed, and the thickness is at least the one at the goal (C154). With the mean velocity w, the square of the speed is at least 2 v.w - |w|^2, so that the potential plus the integral of this falls; its values at both ends give the bound (Lemmas/Fall.lean). Heads by the monotonicity of the conversion; captures and archived weights by C131. |
| C156 With the same discharge, more storage means a smaller capture zone | proved | `C156_delivers`, `C156_porosity`, `C156_captures`, `C156_archived`, `C156_calls` (Storage) | The change of clock of C154, with the quotient of porosity times saturated thickness of the two models; the thickness falls with the conductivity and grows with the thickness of the aquifer (Lemmas/Storage.lean). For the porosity the clock is linear. Captures and archived weights by C131. For two calls: the realizations with the same index draw models that differ only in the porosity (C68). |
