{"id": "C01", "title": "Fixed-length time domain is exactly the arithmetic progression up to the end date", "statement": "Building a time domain from a start, an end and a positive fixed duration succeeds iff start <= end, and then yields exactly the steps start + i*duration for i = 0,1,.. that are <= end, each once, in order, with index i and the given duration.", "quantifier": "every start, end and positive duration", "why_tests_cant": "The number of steps and the end/duration alignment are unbounded; a test fixes one of them.", "anchors": ["pywr-core/src/timestep.rs: generate_timesteps_from_fixed_duration", "pywr-core/src/timestep.rs: TimeDomainBuilder::build"]}
{"id": "C02", "title": "Frequency time domain tiles the horizon without gaps or overlap", "statement": "Building a time domain from a frequency rejects a zero or negative frequency; otherwise every step ends exactly where the next one starts, indices count from zero, the first step starts at the start date, all steps start no later than the end date and the next one would start after it; month/year steps are anchored at the start date (the i-th step is start + i*frequency, so day-of-month clipping in short months does not accumulate).", "quantifier": "every start, end and calendar frequency", "why_tests_cant": "Month lengths and leap years make the step lengths irregular; there is no finite set of representative horizons.", "anchors": ["pywr-core/src/timestep.rs: generate_timesteps_from_frequency"]}
{"id": "C03", "title": "Day-of-year index is leap-stable", "statement": "The day-of-year index used by all daily profiles is always a valid position in a 366-entry profile, and two dates get the same index iff they have the same month and day, whatever their years; 29 February has its own slot.", "quantifier": "every pair of civil dates", "why_tests_cant": "All pairs of (date, year) including century rules; tests check a handful of dates.", "anchors": ["pywr-core/src/timestep.rs: Timestep::day_of_year_index", "pywr-core/src/parameters/profiles/daily.rs: DailyProfileParameter"]}
{"id": "C04", "title": "A full scenario domain enumerates every combination exactly once", "statement": "Without subsets or explicit combinations, the scenario domain contains one scenario per element of the Cartesian product of the group sizes, each combination once, in last-group-fastest order, and simulation ids are 0..n-1 in order.", "quantifier": "every list of groups and sizes", "why_tests_cant": "Number of groups and sizes unbounded; mixed-radix decode errors only show at particular radices.", "anchors": ["pywr-core/src/scenario.rs: ScenarioDomainBuilder::build", "pywr-core/src/scenario.rs: ScenarioIndex"]}
{"id": "C05", "title": "A sub-setted scenario domain is the filter of the full one", "statement": "With slices / label / index subsets, the scenarios run are exactly those of the full domain whose index in every group belongs to that group's subset, in the same relative order, with consecutive simulation ids, and each scenario's schema position is the same as in the full domain.", "quantifier": "every list of groups, sizes and subsets", "why_tests_cant": "Interaction of several groups' subsets with the mixed-radix decode cannot be exhausted.", "anchors": ["pywr-core/src/scenario.rs: ScenarioDomainBuilder::build", "pywr-core/src/scenario.rs: ScenarioGroupBuilder::build"]}
{"id": "C06", "title": "Simulation index to schema index mapping round-trips", "statement": "For every scenario and group, looking up the scenario's simulation index in the group's list of simulated schema indices gives back the schema index the user selected (so data columns trimmed to the subset line up with the scenarios that use them).", "quantifier": "every accepted domain (full, subset or combinations), scenario and group", "why_tests_cant": "Off-by-one here only appears for particular subsets; the silent effect is reading another scenario's data.", "anchors": ["pywr-core/src/scenario.rs: ScenarioDomain::group_scenario_subset", "pywr-core/src/scenario.rs: ScenarioIndex::simulation_index_for_group", "pywr-core/src/parameters/array.rs: Array2ParameterBuilder"]}
{"id": "C07", "title": "Schema scenario id is the same however the scenario was selected", "statement": "The schema-wide id reported for a scenario depends only on its index in each group: selecting the same scenario by subset or by explicit combination reports the same schema id.", "quantifier": "every set of groups and every selected scenario", "why_tests_cant": "Needs comparing two construction routes over all radices.", "anchors": ["pywr-core/src/scenario.rs: ScenarioIndexBuilder / schema_id", "pywr-core/src/scenario.rs: ScenarioDomainBuilder::build"]}
{"id": "C08", "title": "Storage volume follows the water balance", "statement": "After any number of completed timesteps the volume of a storage equals its initial volume plus the sum over steps of (inflow - outflow) * days, as long as no step needed a tolerance clamp; a step whose result is outside [min,max] by more than the tolerance panics rather than silently creating or destroying water, and otherwise the correction per step is at most the tolerance.", "quantifier": "every sequence of timesteps, flows, bounds", "why_tests_cant": "Conservation is a statement about unbounded histories; tests compare a few final volumes.", "anchors": ["pywr-core/src/state/storage.rs: StorageState", "pywr-core/src/state/mod.rs: State::complete"]}
{"id": "C09", "title": "Node flows equal the sum of their edge flows", "statement": "After the solver writes its solution, each node's reported inflow (outflow) equals the sum of the flows reported on edges into (out of) it, and the edge flow equals the flow added, regardless of the order edges are written; nothing from the previous timestep leaks in.", "quantifier": "every network and every flow vector", "why_tests_cant": "Arbitrary topology and order of updates.", "anchors": ["pywr-core/src/state/mod.rs: NetworkState::add_flow", "pywr-core/src/state/mod.rs: NetworkState::reset"]}
{"id": "C10", "title": "Invalid state writes are rejected without side effects", "statement": "Setting a parameter value to NaN, or at an index that does not exist, returns an error and leaves every stored value unchanged; a successful write changes that entry only, so reading any other entry returns its old value.", "quantifier": "every state, index, value", "why_tests_cant": "Requires all indices and all values including non-finite ones.", "anchors": ["pywr-core/src/state/mod.rs: State::set_*_parameter_*"]}
{"id": "C11", "title": "A feasible allocation keeps every storage inside its bounds", "statement": "If the flows returned by the solver satisfy the storage rows it was given (net inflow between -available/dt and missing/dt), the updated volume lies in [min_volume, max_volume] so the end-of-step check never panics and the clamp changes nothing; by induction over the run, starting inside bounds stays inside bounds.", "quantifier": "every history of steps, time step lengths, constant bounds and feasible solutions", "why_tests_cant": "Induction over unbounded runs and arbitrary solver output.", "anchors": ["pywr-core/src/solvers/builder.rs: update_node_constraint_bounds", "pywr-core/src/node.rs: Node::get_bounds", "pywr-core/src/state/storage.rs: StorageState::clamp"]}
{"id": "C12", "title": "Feasible flows keep an active virtual storage inside its bounds", "statement": "If solver flows satisfy the virtual storage row (-missing/dt .. available/dt on sum factor*flow), then after the step the virtual storage volume lies within its [min,max]; an inactive virtual storage never restricts flows.", "quantifier": "every set of member nodes, factors and feasible flows", "why_tests_cant": "Arbitrary member sets and factors; sign conventions are easy to get wrong for one case only.", "anchors": ["pywr-core/src/solvers/builder.rs: update_virtual_storage_node_constraint_bounds / create_virtual_storage_constraints", "pywr-core/src/virtual_storage.rs: VirtualStorage::get_available_volume_bounds", "pywr-core/src/state/mod.rs: NetworkState::update_derived_states"]}
{"id": "C13", "title": "Rolling-window virtual storage returns exactly what was abstracted a window ago", "statement": "A rolling virtual storage with window n keeps the licence identity: current volume + (sum of the last abstractions still inside the window) = constant; what is abstracted in a step becomes available again exactly after the window has passed; volume never exceeds max_volume.", "quantifier": "every sequence of abstractions, reset rule and initial volume", "why_tests_cant": "A window identity over unbounded histories; depends on interplay of initial state, reset and window.", "anchors": ["pywr-core/src/virtual_storage.rs: VirtualStorage::before", "pywr-core/src/state/storage.rs: VirtualStorageHistory"]}
{"id": "C14", "title": "Virtual storage reset happens exactly when the reset rule says so", "statement": "A virtual storage with a monthly-count reset is reset iff the number of calendar months since the last reset is at least the configured number (and on the first step and while inactive); between resets the volume only changes by abstraction/recovery. A day-of-year reset happens once per year.", "quantifier": "every date sequence and reset configuration", "why_tests_cant": "All date sequences / step sizes.", "anchors": ["pywr-core/src/virtual_storage.rs: VirtualStorage::before", "pywr-core/src/virtual_storage.rs: months_since_last_reset", "pywr-core/src/virtual_storage.rs: VirtualStorageReset"]}
{"id": "C15", "title": "Seasonal activity window is the cyclic calendar interval", "statement": "A virtual storage with an active period is active on a date iff the (month, day) lies in the cyclic interval from start to end, including when the interval wraps over new year.", "quantifier": "every date and every active period", "why_tests_cant": "Pairwise boundary cases of wrapping intervals.", "anchors": ["pywr-core/src/virtual_storage.rs: VirtualStorageActivePeriod / is_active"]}
{"id": "C16", "title": "Column-to-edge map is a consistent total partition", "statement": "After LP columns are created every edge of the network belongs to exactly one column and every column holds the edges that map to it; edges share a column only if they are connected through a chain of pass-through link nodes with exactly one inflow and one outflow edge.", "quantifier": "every network topology and edge order", "why_tests_cant": "Merging is order dependent; arbitrary graphs needed.", "anchors": ["pywr-core/src/solvers/col_edge_map.rs: ColumnEdgeMapBuilder", "pywr-core/src/solvers/builder.rs: create_columns"]}
{"id": "C17", "title": "Mass balance at pass-through nodes", "statement": "Every allocation that satisfies the mass-balance rows built for the LP has total inflow equal to total outflow at every link node when expanded to edge flows, and conversely every balanced non-negative edge flow is representable by the columns.", "quantifier": "every network topology and every column vector", "why_tests_cant": "Rows are dropped for collapsed nodes; correctness must be checked for all graphs.", "anchors": ["pywr-core/src/solvers/builder.rs: create_mass_balance_constraints / create_columns"]}
{"id": "C18", "title": "Row bounds are the intersection of all bounds applied", "statement": "After an update each dynamic row's bounds are exactly the tightest of all bounds applied to it in this update, independent of the order of application and of the previous timestep; fixed rows keep their build-time bounds.", "quantifier": "every LP, every sequence of bound applications and previous state", "why_tests_cant": "Stale bounds from earlier timesteps only appear in sequences.", "anchors": ["pywr-core/src/solvers/builder.rs: Lp::reset_row_bounds / apply_row_bounds"]}
{"id": "C19", "title": "The sparse matrix handed to the solver is exactly the rows that were added", "statement": "The compressed row arrays handed to the solver decode to exactly the added rows (dynamic rows first, then fixed rows), each element once with accumulated coefficient, row starts are monotone and the last equals the number of elements; an index returned when a dynamic row was added refers to that row after the build.", "quantifier": "every sequence of row additions", "why_tests_cant": "Arbitrary numbers of rows, duplicate rows.", "anchors": ["pywr-core/src/solvers/builder.rs: LpBuilder::add_variable_row / add_fixed_row / build", "pywr-core/src/solvers/builder.rs: RowBuilder::add_element"]}
{"id": "C20", "title": "The LP objective is the network's total allocation cost", "statement": "For every allocation, the objective value of the LP equals the sum over nodes of node cost times the flow through it (storage: cost times net inflow), so that the solver minimises the cost the user configured.", "quantifier": "every network, cost assignment and flow satisfying mass balance", "why_tests_cant": "Needs equality for all flows; link costs are split in half between both sides.", "anchors": ["pywr-core/src/node.rs: Node::get_outgoing_cost / get_incoming_cost", "pywr-core/src/edge.rs: Edge::cost", "pywr-core/src/solvers/builder.rs: update_edge_objectives"]}
{"id": "C21", "title": "Mutual exclusivity is enforced", "statement": "For an aggregated node with exclusivity, in every solution satisfying the LP rows at most max_active member nodes (and at least min_active) carry flow, and each member's own max flow still holds.", "quantifier": "every feasible solution, every constant or time-varying member bounds", "why_tests_cant": "Universally quantified over feasible points of the LP, and over bounds that vary in time.", "anchors": ["pywr-core/src/solvers/builder.rs: create_node_constraints / create_mutual_exclusivity_constraints / update", "pywr-core/src/aggregated_node.rs: Exclusivity"]}
{"id": "C22", "title": "Aggregated-node factors force the configured flow ratios", "statement": "Whenever factors are accepted, every flow satisfying the factor rows splits in exactly the configured proportions/ratios: with proportions f1..fn-1 the flows through the later nodes are f_i of the total and the first gets the remainder; with ratios q_i/q_j = r_i/r_j; with coefficients f0*q0 + f1*q1 = rhs. Invalid factors (negative, zero divisor, proportions summing to 1 or more, wrong count) are rejected.", "quantifier": "every number of nodes, factor values and feasible flows", "why_tests_cant": "Universal over factors and flows, including degenerate zeros.", "anchors": ["pywr-core/src/aggregated_node.rs: get_norm_proportional_factor_pairs / get_norm_ratio_factor_pairs / get_coefficient_factor_pairs", "pywr-core/src/solvers/builder.rs: create_aggregated_node_factor_constraints"]}
{"id": "C23", "title": "Constant and dynamic evaluation of factors agree", "statement": "If the factors of an aggregated node are all constant, the rows built once at setup impose the same relation as the rows that would be rebuilt every timestep; a relation with any time-varying part (including the right-hand side) follows its current values every timestep.", "quantifier": "every factor configuration and state", "why_tests_cant": "Two code paths must agree for all inputs.", "anchors": ["pywr-core/src/aggregated_node.rs: get_const_norm_factor_pairs / get_norm_factor_pairs", "pywr-core/src/solvers/builder.rs: create_aggregated_node_factor_constraints / update_aggregated_node_factor_constraints"]}
{"id": "C24", "title": "Distributed initial volume preserves the total", "statement": "When an absolute initial volume is distributed over a chain of storages, each storage receives between 0 and its capacity, storages fill in order, and the total equals the requested volume clipped to the total capacity.", "quantifier": "every chain length, capacities and requested volume", "why_tests_cant": "Arbitrary length chain.", "anchors": ["pywr-core/src/node.rs: StorageInitialVolume::get_absolute_initial_volume"]}
{"id": "C25", "title": "Delay parameter reproduces its source shifted in time", "statement": "A delay of d >= 1 steps returns the initial value for the first d timesteps and from then on the source's value exactly d timesteps earlier, for both the current-value and end-of-step variants; a delay of 0 is rejected or is the identity.", "quantifier": "every source sequence, delay and time", "why_tests_cant": "Unbounded sequences and delay.", "anchors": ["pywr-core/src/parameters/delay.rs: DelayParameter"]}
{"id": "C26", "title": "Rolling parameter aggregates exactly the last window of values", "statement": "A rolling parameter returns the initial value until min_values values have been seen and afterwards the aggregation of exactly the most recent min(t, window) source values, oldest first.", "quantifier": "every source sequence, window and minimum count", "why_tests_cant": "Unbounded sequences and window.", "anchors": ["pywr-core/src/parameters/rolling.rs: RollingParameter"]}
{"id": "C27", "title": "Array parameters read the row and column of the current time and scenario", "statement": "A 2-D array parameter over a scenario group returns, for each timestep and scenario, the user's array element at that timestep row and at the column of the scenario's schema index, also when the group was sub-setted; with an offset, rows are clamped to the array ends; without an offset, a row outside the array is an error.", "quantifier": "every array, offset, timestep and scenario selection", "why_tests_cant": "Combination of subset columns, scenario indices and offsets.", "anchors": ["pywr-core/src/parameters/array.rs: Array1Parameter / Array2Parameter"]}
{"id": "C28", "title": "Asymmetric switch implements hysteresis", "statement": "The asymmetric switch index is 1 at time t iff there is a time s <= t at which the on-signal was positive and since which (s, t] there has been no step with off-signal zero and on-signal not positive; starts at 0.", "quantifier": "every pair of signal sequences", "why_tests_cant": "History property over unbounded sequences.", "anchors": ["pywr-core/src/parameters/asymmetric.rs: AsymmetricSwitchIndexParameter"]}
{"id": "C29", "title": "Threshold ratchets latch forever", "statement": "A threshold parameter with ratchet returns 1 at time t iff the predicate has held at some time <= t; without ratchet it returns the predicate of the current step. A multi-threshold with ratchet returns the running maximum of the positions, so never decreases.", "quantifier": "every sequence of values and thresholds", "why_tests_cant": "History property over unbounded sequences.", "anchors": ["pywr-core/src/parameters/threshold.rs: ThresholdParameter", "pywr-core/src/parameters/multi_threshold.rs: MultiThresholdParameter"]}
{"id": "C30", "title": "Muskingum factors encode the routing equations", "statement": "The flow relation imposed by the Muskingum parameter holds between inflow and outflow iff the Muskingum storage S = K(X I + (1-X) O) changes by average inflow minus average outflow over the step; on the first step with the steady-state initial condition the outflow equals the inflow.", "quantifier": "every K, X with non-zero denominator and every flow history", "why_tests_cant": "Algebraic identity over reals.", "anchors": ["pywr-core/src/parameters/muskingum.rs: MuskingumParameter"]}
{"id": "C31", "title": "Piecewise linear interpolation is exact, continuous, bounded and order preserving", "statement": "Interpolation over strictly increasing points returns the tabulated value at every point, lies between the neighbouring values in between, is monotone if the values are, and outside the range returns the end value or an error as configured; non-increasing points are rejected.", "quantifier": "every table and query value", "why_tests_cant": "Universal over tables and real queries.", "anchors": ["pywr-core/src/parameters/interpolate.rs: linear_interpolation / interpolate"]}
{"id": "C32", "title": "Control-curve index identifies the unique band", "statement": "For decreasing control curves the control-curve index i is the band containing the current level: level below all curves before i and at or above curve i; it is monotone in the level, and parameters selecting values by control curve return the value of exactly that band, or an error, never a wrong element.", "quantifier": "every list of curve values and level", "why_tests_cant": "Arbitrary number of curves, unordered curves.", "anchors": ["pywr-core/src/parameters/control_curves/index.rs", "pywr-core/src/parameters/control_curves/simple.rs"]}
{"id": "C33", "title": "Control-curve interpolation stays within and is continuous at the curves", "statement": "An interpolated/piecewise-interpolated control curve returns a value between the bounding values of the band, and equals the configured value exactly on each curve (so is continuous there); too-short value lists are reported as an error.", "quantifier": "every list of decreasing curves, values and level in [0,1]", "why_tests_cant": "Real-valued inputs, arbitrary number of curves.", "anchors": ["pywr-core/src/parameters/control_curves/interpolated.rs", "pywr-core/src/parameters/control_curves/piecewise.rs"]}
{"id": "C34", "title": "Apportioning and volume-between conserve the total", "statement": "The two outputs of the apportion parameter always sum to the source value and the split point lies within [0,1]; consecutive volume-between parameters sum to the total between the outer curves.", "quantifier": "every value and curve", "why_tests_cant": "Real-valued identity.", "anchors": ["pywr-core/src/parameters/control_curves/apportion.rs", "pywr-core/src/parameters/control_curves/volume_between.rs"]}
{"id": "C35", "title": "Monthly profile interpolation stays between the two month values", "statement": "A monthly profile returns the value of the current month; with interpolation it returns a convex combination of the values of the current and adjacent month that is exact at the anchor day.", "quantifier": "every date-time and profile", "why_tests_cant": "All date-times (including sub-daily) and leap years.", "anchors": ["pywr-core/src/parameters/profiles/monthly.rs: MonthlyProfileParameter"]}
{"id": "C36", "title": "Weekly profile is total and stays within its values", "statement": "A weekly profile accepts 52 or 53 values, never reads out of range for any date, and interpolated values are convex combinations of the current week's value and its neighbour.", "quantifier": "every date-time and profile", "why_tests_cant": "All dates incl. leap years and last partial week.", "anchors": ["pywr-core/src/parameters/profiles/weekly.rs: WeeklyProfileParameter"]}
{"id": "C37", "title": "Uniform drawdown profile falls by the same amount each day", "statement": "The uniform drawdown profile is 1 on each reset day and drops by the same amount on every following day of the same cycle, staying within [residual fraction, 1].", "quantifier": "every date, reset day and residual", "why_tests_cant": "Leap-year handling differs by reset date and year.", "anchors": ["pywr-core/src/parameters/profiles/uniform_drawdown.rs: UniformDrawdownProfileParameter"]}
{"id": "C38", "title": "Parameters are evaluated after everything they depend on", "statement": "If building the parameter collection succeeds, each parameter is built exactly once and every parameter it refers to is evaluated before it in each phase; building succeeds iff all references exist and are acyclic; a reported circular reference really contains a cycle and a reported missing parameter really is missing. The build always terminates.", "quantifier": "every finite set of parameters and dependency graph, in any order of definition", "why_tests_cant": "All graphs and all definition orders.", "anchors": ["pywr-core/src/parameters/mod.rs: ParameterCollectionBuilder::build"]}
{"id": "C39", "title": "Setting a variable value takes effect", "statement": "After successfully setting a parameter's variable values on the network state, reading them back returns the values set, and the values used by subsequent simulation steps are the new ones; a failed set changes nothing.", "quantifier": "every parameter exposed as variable, every value and time of setting", "why_tests_cant": "History: set before, between or after steps.", "anchors": ["pywr-core/src/network.rs: set_f64_parameter_variable_values", "pywr-core/src/parameters/constant.rs: ConstantParameter", "pywr-core/src/parameters/offset.rs: OffsetParameter", "pywr-core/src/parameters/mod.rs: ParameterCollection::compute_const"]}
{"id": "C40", "title": "A metric never observes a value that has not been computed", "statement": "Resolving a reference to a parameter's value succeeds only if the value requested is available in the consumer's phase: a before-phase consumer never resolves to an end-of-step value unless it explicitly accepts the initial/previous one, and the resolved value is that of the phase requested.", "quantifier": "every combination of parameter kind, requested value, and consumer phase", "why_tests_cant": "Cross product of configurations together with evaluation order over timesteps.", "anchors": ["pywr-core/src/metric.rs: UnresolvedMetricF64::resolve / resolve_parameter_index_f64_to_metric_f64"]}
{"id": "C41", "title": "Splitting a value over periods is a partition of its time span", "statement": "Splitting a recorded value over monthly or annual reporting periods yields consecutive, non-overlapping pieces covering exactly the original span, each inside a single period, carrying the original value. Day-count periods likewise.", "quantifier": "every start, duration and period", "why_tests_cant": "Calendar arithmetic over all dates.", "anchors": ["pywr-core/src/recorders/aggregator/mod.rs: AggregationFrequency::split_value_into_periods"]}
{"id": "C42", "title": "Periodic aggregation neither loses nor duplicates time", "statement": "For any sequence of contiguous timesteps, the aggregated records (including the final one) tile the whole simulated time span, and each aggregated value is the aggregation function of exactly the recorded values inside its period.", "quantifier": "every contiguous sequence of values, frequency and function", "why_tests_cant": "Unbounded sequences, all alignments between steps and periods.", "anchors": ["pywr-core/src/recorders/aggregator/mod.rs: PeriodicAggregatorState::process_value / calc_aggregation / Aggregator::append_value / finalise"]}
{"id": "C43", "title": "Nested aggregation reports every outer period", "statement": "With nested aggregators (e.g. monthly then annual) every outer period touched by the simulation is reported exactly once, including the last ones emitted when the run is finalised.", "quantifier": "every contiguous sequence of values and pair of frequencies", "why_tests_cant": "Depends on where the run ends relative to both periods.", "anchors": ["pywr-core/src/recorders/aggregator/mod.rs: Aggregator::append_value / finalise"]}
{"id": "C44", "title": "Total aggregation does not depend on the aggregation order", "statement": "For memory-recorder aggregation with sum over both metrics and time (or max over both, or min over both), aggregating metrics first or time first gives the same result; and aggregating a single value applies the function just as for more values.", "quantifier": "every rectangular data set", "why_tests_cant": "Universal over data sizes and values.", "anchors": ["pywr-core/src/recorders/memory.rs: Aggregation / AggregationOrder"]}
{"id": "C45", "title": "A run executes every timestep exactly once, in order", "statement": "Running a model is the same as stepping it until the end of the time domain: timesteps are executed in order, each exactly once; stepping after the end returns an end-of-timesteps error and changes nothing; stopping and continuing gives the same result as one uninterrupted run.", "quantifier": "every time domain and split point", "why_tests_cant": "Arbitrary horizon and interruption point.", "anchors": ["pywr-core/src/models/simple.rs: Model::step / run_with_state"]}
{"id": "C46", "title": "Scenarios are independent and parallel execution is equivalent to sequential", "statement": "The state of each scenario after a step depends only on its own previous state, so the parallel step yields exactly the same states as the sequential one when no scenario fails, and adding or removing scenarios does not change the results of the others.", "quantifier": "every number of scenarios, states and step function", "why_tests_cant": "All interleavings.", "anchors": ["pywr-core/src/network.rs: Network::step / step_par"]}
{"id": "C47", "title": "A failed step leaves the model state usable", "statement": "If a step fails with an error, no scenario has been advanced, so that retrying it does not apply the step twice to some scenarios.", "quantifier": "every position of the failing scenario", "why_tests_cant": "Crash-point property.", "anchors": ["pywr-core/src/network.rs: Network::step", "pywr-core/src/models/simple.rs: Model::step"]}
{"id": "C48", "title": "Inter-network transfers read the network that was named", "statement": "In a multi-network model a transfer from network a to network b delivers a's value from the same timestep if a is before b in the solve order, and a's value at the end of the previous timestep if a is after b; on the first timestep a configured initial value takes precedence in both cases. A model is accepted iff names are unique and every transfer comes from another existing network; transferring from a network to itself is rejected.", "quantifier": "every number of networks, pair of networks and timestep", "why_tests_cant": "Relative indexing over arbitrary counts.", "anchors": ["pywr-core/src/models/multi.rs: OtherNetworkIndex::from_indices / compute_inter_network_transfers"]}
{"id": "C49", "title": "Network topology is built exactly as declared", "statement": "A successfully built network has one node per declared node and unique names; the incoming/outgoing edges of each node are exactly the declared edges that end/start there; duplicate names, duplicate edges, unknown nodes and self-loops are rejected; input/output/link nodes satisfy their connectivity rules.", "quantifier": "every declaration list", "why_tests_cant": "Arbitrary lists of declarations.", "anchors": ["pywr-core/src/network.rs: NetworkBuilder::build / node_edge_maps / node_index_map / edge_index_map", "pywr-core/src/node.rs: NodeBuilder::build"]}
{"id": "C50", "title": "Aggregation functions are permutation invariant and bounded by their inputs", "statement": "Sum, product, count, min, max, any and all do not depend on the order of the inputs; for non-empty input min/max are elements of the input and bound it, the mean lies between min and max; the duration weighted mean likewise, and equals the plain mean for equal durations.", "quantifier": "every list of finite values", "why_tests_cant": "Universal over lists.", "anchors": ["pywr-core/src/agg_funcs/mod.rs: AggFuncF64::calc_iter_f64 / calc_period_values"]}
{"id": "C51", "title": "Hydropower target flow and power calculation are inverse", "statement": "Computing the flow needed for a power target and the power produced by that flow gives the target back whenever head, density, efficiency and conversions are non-zero; the target flow respects max and min flow limits and is never negative.", "quantifier": "every parameter combination", "why_tests_cant": "Algebraic identity over reals, ordering of limits.", "anchors": ["pywr-core/src/utils.rs: hydropower_calculation / inverse_hydropower_calculation", "pywr-core/src/parameters/hydropower.rs: HydropowerTargetParameter"]}
{"id": "C52", "title": "Duration strings and whole days denote the duration", "statement": "The human-readable duration of a timestep denotes the same number of milliseconds as the duration, and the whole-day count of a duration is returned iff the duration is a whole number of days.", "quantifier": "every duration", "why_tests_cant": "Infinitely many durations; negative and sub-day parts interact.", "anchors": ["pywr-core/src/timestep.rs: PywrDuration::duration_string, whole_days, fractional_days"]}
{"id": "C53", "title": "Virtual storages are depleted whichever solver is used", "statement": "After a timestep has been solved, the volume of every active virtual storage has fallen by the weighted flow of its members and all volumes have been checked against their bounds, whichever of the available solvers computed the flows.", "quantifier": "every solver, network and flow", "why_tests_cant": "Each solver has its own write-back code; tests of one solver say nothing about the others.", "anchors": ["pywr-core/src/solvers/clp/mod.rs: solve", "pywr-core/src/solvers/ipm_simd/mod.rs: solve", "pywr-core/src/solvers/ipm_ocl/mod.rs: solve", "pywr-core/src/state/mod.rs: State::complete"]}
{"id": "C54", "title": "Explicit scenario combinations are run exactly as given", "statement": "With an explicit list of combinations the domain has one scenario per combination, in the order given, numbered from zero; every entry is the index given or the first position of the label given; the labels reported are the group's; and the list of simulated indices of each group is sorted, without repeats, and contains exactly the indices used. An index outside its group is rejected.", "quantifier": "every list of groups and every list of combinations of labels and indices", "why_tests_cant": "The number of groups, combinations and orders is unbounded, and mistakes only show when the used indices are not contiguous.", "anchors": ["pywr-core/src/scenario.rs: ScenarioDomainBuilder::build", "pywr-core/src/scenario.rs: build_scenario_map_from_combinations", "pywr-core/src/scenario.rs: ScenarioGroup::label_position"]}
{"id": "C55", "title": "The printed label of a scenario identifies it", "statement": "Within a domain two different scenarios never have the same printed label (the label is documented as unique and is used as an output name).", "quantifier": "every domain and every pair of scenarios", "why_tests_cant": "Depends on every choice of labels; needs injectivity of joining.", "anchors": ["pywr-core/src/scenario.rs: ScenarioIndex::label"]}
{"id": "C56", "title": "The program solved in a timestep is the allocation problem of that timestep", "statement": "In every timestep, whatever was solved before, the flows that satisfy the linear program are exactly the flows allowed by the model in its current state: non-negative, balanced at every node that is not an input, an output or a storage, within the flow bounds of every node and aggregated node, within what every storage and every active virtual storage can give or take in the timestep, and following the factors of every aggregated node. The program of a timestep can be prepared exactly when every value it needs is available, and a valid network gives a program exactly when it has an edge.", "quantifier": "every valid network without mutual exclusivity whose factors are accepted and free of the faults listed under C22 and C23, every sequence of earlier timesteps, every state and flow", "why_tests_cant": "The program is built once, then patched every timestep through ids of rows and columns that are shared by deduplication and by chains of nodes; whether any stale or misplaced bound is left can only be settled for all networks and all histories.", "anchors": ["pywr-core/src/solvers/builder.rs: SolverBuilder::create / BuiltSolver::update", "pywr-core/src/solvers/builder.rs: LpBuilder::build / add_fixed_row / add_variable_row"]}
{"id": "C57", "title": "A radial basis profile passes through its points", "statement": "When the interpolation weights solve the system for the given points, the daily profile equals the value of each point on its day of the year (counted from zero in a 365-day calendar, cyclically), has the same value on a calendar day of every year, and repeats the value of 28 February on 29 February; setting the values or days of the points as variables changes only those.", "quantifier": "every set of points, distance function, weights solving the system, and date", "why_tests_cant": "Every point set and distance function; leap years.", "anchors": ["pywr-core/src/parameters/profiles/rbf.rs: interpolate_rbf_profile, interpolate_rbf, RbfProfileParameter"]}
{"id": "C58", "title": "Daily and diurnal profiles return the value of the calendar day or hour", "statement": "A daily profile accepts 365 or 366 values and returns on every date the value given for that month and day, with 365 values repeating 28 February on 29 February; a diurnal profile returns the value of the hour of the day.", "quantifier": "every profile, date and time", "why_tests_cant": "All dates of leap and common years.", "anchors": ["pywr-core/src/parameters/profiles/daily.rs", "pywr-core/src/parameters/profiles/diurnal.rs", "pywr-schema/src/parameters/profiles.rs: DailyProfileParameter"]}
{"id": "C59", "title": "The order in which parameters are defined does not matter", "statement": "Building a parameter collection from the same definitions in another order succeeds or fails alike, and when it succeeds each name refers to a parameter of the same kind that is scheduled in the same phases.", "quantifier": "every list of definitions and every permutation of it", "why_tests_cant": "All permutations of all dependency graphs; tests define parameters in one or two orders.", "anchors": ["pywr-core/src/parameters/mod.rs: ParameterCollectionBuilder::build"]}
{"id": "C60", "title": "Whole runs allocate flows within all limits, or stop for a stated reason", "statement": "In every run from the initial state each completed step reports flows that satisfy mass balance and every node, aggregated node, exclusivity relationship (for some choice of groups), factor, storage and virtual storage limit for the volumes the state shows at that moment, at least total cost if the solver minimises; volumes change by exactly what flows in less what flows out or is used, stay within their bounds, and are carried to the next step unless reset. A run stops early only because a value is missing or because the solver finds no solution, in which case, if the solver is complete, no flow is allowed. A rolling licence that is never reset is given back in each step what was used a window's length of steps before, and the use within any window never exceeds the licence.", "quantifier": "every network whose exclusive aggregated nodes have members with constant limits, every sequence of steps (not getting longer if there are rolling licences) and metric values, every solver that returns solutions of its program", "why_tests_cant": "Composes network construction, matrix building, solving, state update and licences over unboundedly many steps; tests check a few small networks against expected numbers.", "anchors": ["pywr-core/src/network.rs: Network::step, compute_components, after", "pywr-core/src/solvers/builder.rs: SolverBuilder, BuiltSolver::update", "pywr-core/src/state/mod.rs: State::complete, NetworkState::update_derived_states", "pywr-core/src/node.rs: Node::before", "pywr-core/src/virtual_storage.rs: VirtualStorage::before"]}
{"id": "C61", "title": "Water is conserved over a whole run", "statement": "After any number of completed steps the total volume in storage nodes equals the total initial volume plus the sum over steps of days times the flow of all inputs less that of all outputs.", "quantifier": "every network, run and number of completed steps, as for C60", "why_tests_cant": "Sum over all nodes of all networks and any number of steps.", "anchors": ["pywr-core/src/network.rs: Network::step, compute_components, after", "pywr-core/src/solvers/builder.rs: SolverBuilder, BuiltSolver::update", "pywr-core/src/state/mod.rs: State::complete, NetworkState::update_derived_states", "pywr-core/src/node.rs: Node::before", "pywr-core/src/virtual_storage.rs: VirtualStorage::before"]}
{"id": "C62", "title": "A run that could always do nothing completes", "statement": "If all values are present, minimum flows are not positive, maximum flows not negative, no exclusive group has to be active, storages and licences start within bounds that never narrow, and the solver finds a solution whenever one exists, then every step of the run completes: no step ends with an error or a panic.", "quantifier": "every network and run meeting these conditions, of any length", "why_tests_cant": "Absence of errors over all runs.", "anchors": ["pywr-core/src/network.rs: Network::step, compute_components, after", "pywr-core/src/solvers/builder.rs: SolverBuilder, BuiltSolver::update", "pywr-core/src/state/mod.rs: State::complete, NetworkState::update_derived_states", "pywr-core/src/node.rs: Node::before", "pywr-core/src/virtual_storage.rs: VirtualStorage::before"]}
{"id": "C63", "title": "Activation functions keep variables within their configured range", "statement": "An activation function moves a value to the nearest one within its advertised bounds and transforms it; what comes out always lies in the configured range, and for values configured in order a larger input never gives a smaller result. After any history of settings the value read for a constant is none or lies in a range with which it was set. Only a unit function with minimum above maximum panics.", "quantifier": "every activation function, value, and history of settings", "why_tests_cant": "All real inputs and histories; tests try a handful of values.", "anchors": ["pywr-core/src/parameters/activation_function.rs: ActivationFunction", "pywr-core/src/parameters/constant.rs: ConstantParameter::set_variables", "pywr-core/src/network.rs: set_f64_parameter_variable_values"]}
{"id": "C64", "title": "Node names are unique, and the error names exactly the offenders", "statement": "A network schema is rejected for its names exactly if some name is borne by more than one node, ordinary or virtual; the error lists exactly the names that occur more than once, sorted, each with how often it occurs among nodes and virtual nodes.", "quantifier": "every schema network", "why_tests_cant": "Holds for all lists of names, tests try a few.", "anchors": ["pywr-schema/src/network.rs: NetworkSchema::validate"]}
{"id": "C65", "title": "Every node of a schema conserves water", "statement": "Whatever a node of the schema is expanded to, in every allowed solution of a step: links, gauges, splits, piecewise links, turbines and abstractions send along their edges exactly what they receive; loss links, treatment works and rivers send what they receive less a loss; storages, piecewise storages and reservoirs change their volume by what is received (and rain) less what is sent, leaked or spilled, within the bounds configured; delays and routed rivers release the delayed or routed flow.", "quantifier": "every schema network that can be built, every step state, every allowed flow", "why_tests_cant": "Quantifies over all networks of 17 node types, all settings of their options, and all flows the solver may return; tests fix a network and one optimum.", "anchors": ["pywr-schema/src/network.rs: NetworkSchema::add_to_network", "pywr-schema/src/edge.rs: Edge::iter_node_connection_pairs", "pywr-schema/src/nodes/*.rs: add_to_network, input_connectors, output_connectors", "pywr-core/src/solvers/builder.rs: SolverBuilder::create"]}
{"id": "C66", "title": "Attributes of nodes and edges report the flows along the schema's edges", "statement": "The inflow of a node is what it receives along its edges, the outflow what it sends (for an abstraction: to the river; its abstraction: along the abstraction slot), the compensation at least the configured one, the flow of an edge the flow along all connections it stands for; rainfall and evaporation of a reservoir are those that occur.", "quantifier": "every schema network that can be built, every allowed flow", "why_tests_cant": "Holds between every attribute and every combination of connections.", "anchors": ["pywr-schema/src/nodes/*.rs: create_metric, nodes_for_flow_constraints", "pywr-schema/src/edge.rs: Edge::create_metric", "pywr-core/src/metric.rs: MetricF64::get_value"]}
{"id": "C67", "title": "Losses follow the configured loss factor", "statement": "The loss of a loss link, treatment works or river is not negative and equals the gross factor times what is received, or the net factor times what is sent; nothing without a factor or with a factor of zero.", "quantifier": "every schema network that can be built, every step state, every allowed flow", "why_tests_cant": "All factors, constant or varying, and all flows.", "anchors": ["pywr-schema/src/nodes/loss_link.rs: LossFactor::load", "pywr-schema/src/nodes/river.rs: RiverNode", "pywr-schema/src/nodes/water_treatment_works.rs: WaterTreatmentWorksNode", "pywr-core/src/aggregated_node.rs"]}
{"id": "C68", "title": "Limits of schema nodes bound what they receive and send", "statement": "The minimum and maximum configured on an input, output, link, loss link, treatment works, abstraction, piecewise step or turbine bound the flow along the node's edges (after the loss, or along the abstraction slot); a catchment sends exactly its flow; costs never act as limits and soft limits never as hard ones.", "quantifier": "every schema network that can be built, every step state, every allowed flow", "why_tests_cant": "Limits apply to groups of core nodes created differently for every combination of options; tests fix one.", "anchors": ["pywr-schema/src/nodes/core.rs: InputNode, LinkNode, OutputNode, CatchmentNode", "pywr-schema/src/nodes/river_gauge.rs: RiverGaugeNode", "pywr-schema/src/nodes/loss_link.rs", "pywr-schema/src/nodes/water_treatment_works.rs", "pywr-schema/src/nodes/abstraction.rs", "pywr-schema/src/nodes/piecewise_link.rs", "pywr-schema/src/nodes/turbine.rs"]}
{"id": "C69", "title": "Aggregated nodes constrain the flows of the components they refer to", "statement": "A virtual aggregated node bounds the sum of the flows (inflow, outflow, loss, ... as seen on the schema's edges) of the components it refers to by its limits, and those flows satisfy its proportions, ratios or coefficients.", "quantifier": "every schema network that can be built, every virtual aggregated node in it, every step state, every allowed flow", "why_tests_cant": "A component may be any number of core nodes; tests refer to single ones.", "anchors": ["pywr-schema/src/nodes/virtual_nodes/aggregated.rs: AggregatedNode::add_to_network", "pywr-schema/src/nodes/*.rs: nodes_for_flow_constraints", "pywr-core/src/aggregated_node.rs"]}
{"id": "C70", "title": "A virtual storage is drawn down by the components it refers to, each times its factor", "statement": "While a virtual storage is active, the sum over the components it refers to of factor times flow (as seen on the schema's edges) times days stays within its bounds; without factors each counts once. Its cost acts on the flows it counts, and parameters defined on it are available.", "quantifier": "every schema network that can be built, every virtual storage in it, every step state, every allowed flow", "why_tests_cant": "A component may be several core nodes, so that factors and nodes can be paired wrongly; tests use single core nodes.", "anchors": ["pywr-schema/src/nodes/virtual_nodes/virtual_storage.rs: VirtualStorageNode::add_to_network", "pywr-core/src/virtual_storage.rs: iter_nodes_with_factors", "pywr-schema/src/network.rs: add_to_network"]}
{"id": "C71", "title": "A piecewise storage is one storage of its total volume", "statement": "The stores of a piecewise storage are the parts of its largest volume between its control curves; its least and initial volumes are poured into them from below; the total volume stays between the least and the largest volume in every step; and the reported (relative) volume is that of all stores together.", "quantifier": "every schema network that can be built, every piecewise storage with curves in ascending order, every value of the parameters, every allowed flow", "why_tests_cant": "Sizes come from chains of generated parameters whose number depends on the number of curves.", "anchors": ["pywr-schema/src/nodes/piecewise_storage.rs: PiecewiseStorageNode::add_to_network, create_metric", "pywr-core/src/parameters/control_curves/volume_between.rs", "pywr-core/src/parameters/difference.rs", "pywr-core/src/node.rs: StorageInitialVolume", "pywr-core/src/metric.rs: AggregatedStorageNodeVolume"]}
{"id": "C72", "title": "Aggregated nodes report the flow they constrain, aggregated storages the volume of their nodes", "statement": "The flow reported by a virtual aggregated node is the sum of the flows of the components it refers to, and the volume reported by an aggregated storage is the sum of the volumes of its nodes (relative: over the sum of their largest volumes).", "quantifier": "every schema network that can be built, every virtual aggregated node or storage, every allowed flow, every volume", "why_tests_cant": "Depends on which side of which core nodes is read for each of the node types.", "anchors": ["pywr-schema/src/nodes/virtual_nodes/aggregated.rs: AggregatedNode::create_metric, AggregatedStorageNode", "pywr-core/src/metric.rs: AggregatedNodeInFlow, AggregatedNodeOutFlow, AggregatedStorageNodeVolume, AggregatedStorageNodeProportionalVolume"]}
{"id": "C73", "title": "Recorders write every value of a metric set once, under the right name", "statement": "For every scenario and metric, the saved data of a memory recorder, the column of a wide CSV file headed by the metric and scenario, and the records of a long CSV file with their names are exactly the metric's values over the run (or what the set's aggregator makes of them on its own), in order; whether a set yields values at a step depends on dates only, so it yields for all metrics and scenarios or for none; written numbers are within half a unit of the last decimal place; the metric_set column names the metric set; sets without metrics are accepted.", "quantifier": "every list of metric sets, aggregators (any nesting) and scenarios, every run (any number of steps and any values) whose dates the aggregators accept", "why_tests_cant": "A run of arbitrary length over arbitrary many scenarios and sets; values are matched to names by position only, and alignment relies on aggregators of different metrics always yielding together.", "anchors": ["pywr-core/src/recorders/metric_set.rs: MetricSet::save, MetricSet::finalise", "pywr-core/src/recorders/memory.rs: MemoryRecorder::save, finalise, iter_long_fmt_records", "pywr-core/src/recorders/csv.rs: CsvWideFmtOutput, CsvLongFmtOutput", "pywr-core/src/network.rs: Network::after, save_recorders, finalise"]}
{"id": "C74", "title": "Merit order: an allocation of least cost leaves no bargain", "statement": "In every solved step: no change of flows that nodes, aggregated nodes and virtual storages have room for lowers the total cost. Hence, if sending a unit from a supply (or storage) to a demand (or storage) has negative cost along some way, something on that way is at its limit; no water is sent at a loss unless a minimum asks for it; flow does not take a way dearer than another with room between the same nodes; and of two links side by side the dearer one carries more than its minimum only if the cheaper one is full.", "quantifier": "every network without exclusivity, every state and step solved to optimality, every circulation, every way through the network, every pair of parallel links", "why_tests_cant": "Quantifies over all alternative flows and all ways through arbitrary networks; unit tests compare a solution with a handful of expected numbers.", "anchors": ["pywr-core/src/solvers/builder.rs: SolverBuilder::create, BuiltSolver::update, update_edge_objectives", "pywr-core/src/edge.rs: Edge::cost", "pywr-core/src/node.rs: get_outgoing_cost, get_incoming_cost, get_bounds"]}
{"id": "C75", "title": "Nodes with several lanes use the cheaper lane first", "statement": "In every step solved at least cost: a piecewise link passes its flow through its steps in order of cost, the dearer step carrying more than its minimum only if the cheaper one is at its maximum (with increasing costs and no minima, the flows of the steps are the total poured into the steps one after the other); a river gauge or abstraction with a negative cost of the residual flow carries min(residual flow, flow) as residual flow before anything bypasses; a link fills its cheaper soft minimum first, and stays below its soft maximum as long as its own cost is lower; a treatment works fills its soft minimum flow of negative cost first.", "quantifier": "every network of the schema that builds, every such node in it however connected and referred to by aggregated nodes or virtual storages without factors, every step solved to optimality, all values of costs and limits", "why_tests_cant": "The claim is about optimal solutions of arbitrary surrounding networks; tests solve one network with one set of numbers.", "anchors": ["pywr-schema/src/nodes/piecewise_link.rs: PiecewiseLinkNode::add_to_network", "pywr-schema/src/nodes/river_gauge.rs: RiverGaugeNode", "pywr-schema/src/nodes/core.rs: LinkNode, SoftConstraint", "pywr-schema/src/nodes/water_treatment_works.rs: WaterTreatmentWorksNode", "pywr-schema/src/nodes/abstraction.rs: AbstractionNode", "pywr-schema/src/edge.rs: iter_node_connection_pairs"]}
{"id": "C76", "title": "Parameters have the values of their definitions, whatever the order of definition", "statement": "A run gives every parameter, at every step, the value that its definition gives for the values of its references: constants, the values from before the solver of the same step, and end-of-step values of the same step (after the solver) or of the step before (0 at the first step). Values and states of the nodes are reported exactly when some history obeys all definitions; there is at most one. Listing the parameters in another order changes neither whether the network builds nor anything it reports, and adding parameters changes nothing for the others as long as the new ones do not fail.", "quantifier": "all sets of parameters with references of any kind, all formulas, internal states, node behaviours and solvers (arbitrary partial functions), all numbers of steps, all metrics", "why_tests_cant": "Order of definition and evaluation interact through every reference; tests try a few small models, in one order.", "anchors": ["pywr-core/src/parameters/mod.rs: ParameterCollectionBuilder::build, compute_simple, before, after, ParameterCollection::compute_constants", "pywr-core/src/network.rs: setup_network, compute_components, after", "pywr-core/src/metric.rs: UnresolvedMetricF64::resolve", "pywr-core/src/state/mod.rs: State"]}
{"id": "C77", "title": "The interior point solver is given exactly the flows a network allows", "statement": "For a network without aggregated nodes and virtual storages, the program handed to the SIMD interior point solver at a step is satisfied by exactly those non-negative flows that pass through links unchanged, stay within the maximum flow of every node that has one, and keep storages between their limits, all limits cut off at 999999; its objective is minus the total cost. Minimum flows are not part of it, although no solver feature is asked for them.", "quantifier": "all networks the builder accepts, all constraints, costs, volumes and lengths of step, all flows", "why_tests_cant": "Rows are shared between nodes, columns between edges, and bounds are applied through lists of row numbers; tests compare a few solutions.", "anchors": ["pywr-core/src/solvers/ipm_simd/mod.rs: SolverBuilder, LpBuilder::add_row, Lp::get_full_matrix, BuiltSolver::update", "pywr-core/src/network.rs: required_features", "pywr-core/src/solvers/col_edge_map.rs"]}
{"id": "C78", "title": "The sparse factorisation solves the normal equations", "statement": "For every sparse matrix without empty rows whose equality rows are independent, and all positive values of the variables, the index lists made at setup describe the normal matrix and its Cholesky factor completely: every entry that can be different from zero is listed with all products it consists of, no pivot is zero, and the vector found by forward and backward substitution satisfies the normal equations.", "quantifier": "all sparse matrices, all positive points, all right-hand sides, all previous contents of the work arrays", "why_tests_cant": "Fill-in and index bookkeeping depend on the pattern of the matrix; the unit tests check lengths of index lists for three matrices.", "anchors": ["ipm-common/src/lib.rs: SparseNormalCholeskyIndices::from_matrix", "ipm-simd/src/path_following_direct.rs: normal_matrix_cholesky_decomposition, cholesky_solve"]}
{"id": "C79", "title": "Every iteration of the interior point method stays inside and comes closer", "statement": "In every iteration all flows, slacks and the multipliers of inequalities remain positive; the violation of every constraint and of every dual constraint is multiplied by the same factor in [0, 1), one minus the step length; once these violations are zero, the gap between the primal and dual objective shrinks in every iteration by a tenth-weighted factor of the step length.", "quantifier": "all programs with independent equality rows, all positive points, all tolerances, all numbers of iterations", "why_tests_cant": "The statement is about every iterate of a numerical method; tests see only the final values of a few programs.", "anchors": ["ipm-simd/src/path_following_direct.rs: normal_eqn_step, normal_eqn_init", "ipm-simd/src/common.rs: normal_eqn_rhs, compute_dx_dz_dw, vector_update", "ipm-simd/src/lib.rs: PathFollowingDirectSimdSolver::solve"]}
{"id": "C80", "title": "What the interior point solver returns is nearly feasible and nearly optimal", "statement": "If the solver returns, the returned values are positive, break no constraint by more than the primal tolerance times one plus their norm, and no feasible point has an objective better by more than a bound made of the tolerances and the norms of the solution.", "quantifier": "all programs, tolerances, limits on iterations", "why_tests_cant": "Optimality compares with every feasible point.", "anchors": ["ipm-simd/src/path_following_direct.rs: normal_eqn_step", "ipm-simd/src/common.rs: primal_feasibility, dual_feasibility, dot_product, vector_norm", "ipm-simd/src/lib.rs: solve"]}
{"id": "C81", "title": "Scenarios solved together do not influence one another", "statement": "The solver treats four scenarios at a time. What it returns for a scenario is what it returns for that scenario alone, whatever the other three are, including the copies that fill an incomplete group; a group is solved if and only if each of its scenarios is solved alone within the limit on iterations.", "quantifier": "all groups of scenarios, all programs, tolerances and limits", "why_tests_cant": "Scenarios that have converged sit in the same registers as those that have not; tests would have to try all combinations.", "anchors": ["ipm-simd/src/path_following_direct.rs: normal_eqn_step", "ipm-simd/src/lib.rs: solve", "pywr-core/src/solvers/ipm_simd/mod.rs: add_obj_coefficient, apply_row_bounds, SimdIpmF64Solver::solve"]}
{"id": "C82", "title": "The interior point solver can treat exactly the networks whose links lead somewhere", "statement": "For every network in which every storage has an edge the solver is set up. If every link is joined, along edges in either direction, to a node that is not a link, no pivot of the factorisation is zero in any iteration. If some link with several edges in or out is not, a pivot is zero in every iteration, although the builder accepts the network and its allocation problem has solutions.", "quantifier": "all networks the builder accepts, all points an iteration can be at", "why_tests_cant": "It depends on the rank of the matrix built for an arbitrary network; tests have networks where it holds.", "anchors": ["pywr-core/src/solvers/ipm_simd/mod.rs: SolverBuilder::create_mass_balance_constraints", "ipm-common/src/lib.rs: SparseNormalCholeskyIndices::from_matrix", "ipm-simd/src/path_following_direct.rs: normal_matrix_cholesky_decomposition"]}
{"id": "C83", "title": "Limits and costs in a step are those of the parameters in that step", "statement": "In every step of a run of a network with parameters, the flows obey the limits, factors and volume bounds, and minimise the costs, that the parameters they refer to have in that step. A parameter calculated before the allocation sees the flows of the step before (none at first) and the volumes with which the step starts; one calculated after it sees the flows and volumes of the step itself. Proportional volumes before the allocation are relative to the maximum volume of the step before.", "quantifier": "all networks, all parameters with arbitrary calculations and internal states, all solvers whose answers satisfy their program, all numbers of steps", "why_tests_cant": "Feedback between parameters, volumes and the allocation runs through every step; tests check a few configurations.", "anchors": ["pywr-core/src/metric.rs: MetricF64::get_value", "pywr-core/src/network.rs: compute_components, after", "pywr-core/src/state/mod.rs: NetworkState", "pywr-core/src/node.rs: get_max_flow, get_max_volume", "pywr-core/src/parameters/mod.rs: before_general, after_general"]}
{"id": "C84", "title": "A value taken from a data table is the one with the given labels", "statement": "A reference to a data table with row and column labels gives the number in the CSV file at the row and column with these labels, or for array tables all numbers of that row or column. It is refused if there is no such cell, if the number of labels is wrong, if the cell is not a number, or if the kind of table is another one. Files are accepted exactly if all rows have the same length and there are enough header rows and columns of labels; up to four labels may be used. Table names are unique.", "quantifier": "all files, all layouts with up to four labels, all references", "why_tests_cant": "Tests use small files with one or two labels of each kind; labels that repeat, cells that are not numbers and three or four labels are not covered.", "anchors": ["pywr-schema/src/data_tables/scalar.rs: LoadedScalarTable", "pywr-schema/src/data_tables/vec.rs: LoadedVecTable", "pywr-schema/src/data_tables/mod.rs: LoadedTableCollection, TableDataRef"]}
{"id": "C85", "title": "A time series gives each step the data of that step", "statement": "A time series read from a file is brought to the steps of the model: the value used in a step is the value of the series at that date if the series has the steps of the model, the mean of all values that fall into the step if the series is finer, and the latest value at or before the date if the series is coarser. The order of rows in the file does not matter and data before the first step is ignored. A series that does not begin with the first step or does not reach the last step is refused. A reference to a column, or to all columns by scenario, is given the data of that column or of these columns.", "quantifier": "all series, all numbers and lengths of steps, all starts, all references", "why_tests_cant": "Tests cover three series of one column with fixed numbers of days; they cannot say that no row is assigned to a neighbouring step for any offset, length and gap, and do not cover steps of unequal length or references with the same names.", "anchors": ["pywr-schema/src/timeseries/align_and_resample.rs: align_and_resample", "pywr-schema/src/timeseries/mod.rs: LoadedTimeseriesCollection", "pywr-core/src/timestep.rs: PywrDuration"]}
{"id": "C86", "title": "With exclusive groups the program is exactly the allocation problem with a choice of groups", "statement": "For a network with exclusive aggregated nodes whose members have constant limits, the flows the solver may return in a step are exactly those for which some choice of active groups exists such that the number of active groups of every exclusive node is within its limits, members of groups that are not active carry nothing, members of active groups keep their limits (and the cut-offs at one million and one millionth), and everything else - mass balance, other nodes, other aggregated nodes, factors, licences, volumes - is as without exclusivity. An optimal solution has least cost over all choices together. Whether the program can be created and prepared does not depend on exclusivity, nor does anything depend on the order in which groups are numbered.", "quantifier": "all networks, all numbers and overlaps of groups, all states, all sequences of steps, all orders of the hash set", "why_tests_cant": "Tests have one exclusive node with two or three groups in one state and compare one optimum; they cannot show that no other allocation is cut off, that overlapping groups are treated alike, or that the result does not depend on the order of a hash set.", "anchors": ["pywr-core/src/solvers/builder.rs: SolverBuilder::create_columns, create_node_constraints, create_mutual_exclusivity_constraints", "pywr-core/src/aggregated_node.rs: Relationship, Exclusivity"]}
{"id": "C87", "title": "In a run every parameter has the value its type defines", "statement": "A run of a network of parameters reports given values exactly when there are values for all its steps such that every parameter has the value its type defines: arithmetic, division, difference, deficit, polynomial, discount factor, indexed and aggregated parameters from the metrics they refer to at that moment; a delay of d steps its initial value in the first d steps and then the value its metric had at the end of the step d before; a rolling window the aggregate of the values at the end of the last steps; a threshold with a ratchet 1 from the first step in which its condition held; an asymmetric switch 1 since it was switched on. No value depends on anything else that is remembered. A division by zero, an index out of range, a vector that is too short and a delay of zero steps over a value that is only known at the end of the step make the run fail, and so does every offset parameter. (An offset parameter always fails: the code panics.)", "quantifier": "for every network of such parameters in any order of definition, every behaviour of nodes and solver, every number of steps, and every list of reported metrics", "why_tests_cant": "the equations involve the whole history of a run and all parameters at once, whatever the order in which they are evaluated and the internal states in which the past is kept; tests run a few steps of a single parameter", "anchors": ["pywr-core/src/parameters/min.rs MinParameter", "pywr-core/src/parameters/max.rs MaxParameter", "pywr-core/src/parameters/negative.rs NegativeParameter", "pywr-core/src/parameters/negativemin.rs NegativeMinParameter", "pywr-core/src/parameters/negativemax.rs NegativeMaxParameter", "pywr-core/src/parameters/polynomial.rs Polynomial1DParameter", "pywr-core/src/parameters/discount_factor.rs DiscountFactorParameter", "pywr-core/src/parameters/division.rs DivisionParameter", "pywr-core/src/parameters/deficit.rs DeficitParameter", "pywr-core/src/parameters/difference.rs DifferenceParameter", "pywr-core/src/parameters/indexed_array.rs IndexedArrayParameter", "pywr-core/src/parameters/vector.rs VectorParameter", "pywr-core/src/parameters/aggregated.rs AggregatedParameter", "pywr-core/src/parameters/aggregated_index.rs AggregatedIndexParameter", "pywr-core/src/parameters/delay.rs DelayParameter", "pywr-core/src/parameters/rolling.rs RollingParameter", "pywr-core/src/parameters/asymmetric.rs AsymmetricSwitchIndexParameter", "pywr-core/src/parameters/threshold.rs ThresholdParameter", "pywr-core/src/parameters/multi_threshold.rs MultiThresholdParameter", "pywr-core/src/parameters/offset.rs OffsetParameter"]}
{"id": "C88", "title": "Rules made of parameters act on the network as written", "statement": "A run of a network with parameters reports given values exactly when there is a history in which every parameter has the value its type defines from what its metrics show, the network is simulated with the values its nodes refer to, and the metrics show the flows and volumes of that simulation; and there is only one. In particular: a node whose maximum flow is a parameter never carries more than the value of that parameter in that step. If that parameter is a delay of the outflow of another node, it never carries more than left that node so many steps ago. If the maximum flow is chosen by a threshold on the proportional volume of a reservoir, the flow is at most the reduced demand in every step after the reservoir ended a step below the threshold, and the normal demand otherwise. A control curve has the value of the band in which its metric lies. A deficit parameter of an output and the supply of the output add up to its maximum flow.", "quantifier": "for every network, every set of parameters of these types in any order, every number of steps, and every solver that returns solutions of its program; for flows of nodes that are not in exclusive groups; licences start within their bounds, which do not narrow", "why_tests_cant": "the claim joins the order of evaluation of parameters, their memory, the resolution of references, the update of the solver's program, the solution and the state of the network, over all steps of a run; a test sees one network and a few steps", "anchors": ["pywr-core/src/network.rs Network::step", "pywr-core/src/network.rs Network::compute_components", "pywr-core/src/network.rs Network::after", "pywr-core/src/metric.rs MetricF64::get_value", "pywr-core/src/parameters/delay.rs DelayParameter", "pywr-core/src/parameters/threshold.rs ThresholdParameter", "pywr-core/src/parameters/indexed_array.rs IndexedArrayParameter", "pywr-core/src/parameters/deficit.rs DeficitParameter", "pywr-core/src/parameters/control_curves/simple.rs ControlCurveParameter"]}
{"id": "C89", "title": "Converting an old model reports everything it does not carry over", "statement": "Converting a network written for Pywr 1 returns a network and a list of errors. Every node of the old network is in the new one under its own name, as a virtual node exactly if it was one, with its attributes converted one by one, or there is an error that names it; the same holds for every parameter of the old network (which may become a timeseries) and every edge, and there is an error for every table. The components of the new network are in the order of the old, and nothing but these and the parameters and timeseries that were written inside others is added.", "quantifier": "for every old network, with parameters nested to any depth", "why_tests_cant": "the conversion is a recursion over documents of any size and depth, in which a failure deep inside one attribute must surface as the failure of the component; the tests compare six converted files", "anchors": ["pywr-schema/src/network.rs NetworkSchema::from_v1", "pywr-schema/src/v1.rs try_convert_node_attr", "pywr-schema/src/v1.rs try_convert_parameter_attr", "pywr-schema/src/metric.rs Metric::try_from_v1", "pywr-schema/src/parameters/mod.rs ParameterOrTimeseriesRef::try_from_v1", "pywr-schema/src/nodes/mod.rs NodeOrVirtualNode::try_from_v1"]}
{"id": "C90", "title": "Attributes of a converted model refer to what they referred to", "statement": "After conversion every attribute means what it meant: a number is the same number; the name of a parameter is a reference to the parameter of that name, or, if that parameter was a data frame, to the column of the timeseries that was made from it; a parameter written inside the attribute is a reference to a parameter of the new network that has the same type and name, and whose own attributes mean, to any depth, what they meant; a reference to a storage node is to a virtual node exactly if the node is virtual.", "quantifier": "for every old network whose names are distinct (C91), with parameters nested to any depth, and every attribute of its components", "why_tests_cant": "the references are rewritten in several passes over lists that are filled while recursing; whether every reference is reached and leads to the right definition depends on all components at once", "anchors": ["pywr-schema/src/network.rs NetworkSchema::from_v1", "pywr-schema/src/metric.rs Metric::try_from_v1", "pywr-schema/src/metric.rs IndexMetric::try_from_v1", "pywr-schema/src/timeseries/mod.rs ConvertedTimeseriesReference::try_from_v1", "pywr-schema/src/parameters/control_curves.rs", "pywr-schema/src/visit.rs VisitMetrics"]}
{"id": "C91", "title": "Names made up by the conversion are unique", "statement": "Parameters that were written inside attributes, without a name, get names in the conversion. All parameters of the new network have different names, and so have all its timeseries; a reference to one of them can therefore mean only that one.", "quantifier": "for every old network in which the names that are written down are distinct and not of the form of made-up names, with parameters nested to any depth", "why_tests_cant": "the names are made of the name of the enclosing component and a counter that is reset between components; whether two of them can coincide is a question about all networks", "anchors": ["pywr-schema/src/v1.rs ConversionData", "pywr-schema/src/v1.rs ParameterMeta::try_from_v1", "pywr-schema/src/network.rs NetworkSchema::from_v1", "pywr-schema/src/parameters/mod.rs ParameterOrTimeseriesRef::try_from_v1", "pywr-schema/src/timeseries/mod.rs ConvertedTimeseriesReference::try_from_v1"]}
{"id": "C92", "title": "Converted scenarios and river splits keep their meaning", "statement": "A scenario group of an old model that simulates the members from a start to an end, in steps, simulates after conversion the same members in the same order; without a slice it simulates all. The combinations of an old model are kept. The fractions of a converted river split are in the same proportions to each other, and to what stays in the river, as the factors of the old one.", "quantifier": "for every size, start, end and step, every list of combinations, and every list of constant factors with a sum that is not zero", "why_tests_cant": "the number of slices and of lists of factors is unbounded, and the subset is only interpreted when the domain is built", "anchors": ["pywr-schema/src/model.rs ScenarioGroup::try_from", "pywr-schema/src/model.rs ModelSchema::from_v1", "pywr-core/src/scenario.rs ScenarioGroupBuilder::build", "pywr-core/src/scenario.rs ScenarioDomainBuilder::build", "pywr-schema/src/nodes/river_split_with_gauge.rs convert_factors"]}
{"id": "C93", "title": "A river split gives each slot at most its part of what flows beyond the residual flow", "statement": "Of what a river split receives, a residual flow of at most the configured one passes first. What is sent from the slot of a split is at most its factor times the rest, and with a single split its lane carries exactly that part, whatever the network, the costs and the other edges.", "quantifier": "for every network of the schema, every number of splits and factors, and every allocation that satisfies the constraints of a step", "why_tests_cant": "Holds for all allocations the solver may choose; the factor constraints of several splits interact, which examples with one split do not show.", "anchors": ["pywr-schema/src/nodes/river_split_with_gauge.rs: RiverSplitWithGaugeNode::add_to_network / output_connectors", "pywr-core/src/aggregated_node.rs: proportional factors"]}
{"id": "C94", "title": "After any number of steps a solver library holds the allocation problem of the current step", "statement": "Each solver hands the allocation problem to its library once and then changes only costs, limits and factors. For every network whose features the solver declares, setup succeeds and so does every step in which everything asked for is there; and after any number of steps the solutions of the program inside Clp, Cbc or HiGHS are exactly the allowed flows of the current step (with a choice of exclusive groups), those of least cost in the program have least cost in the network, and nothing of earlier steps remains. The problem made anew for Microlp in each step has the same solutions and costs, and none is made only if there is no solution.", "quantifier": "for every network, solver, choice of groups and every sequence of steps with any values of metrics, volumes and lengths", "why_tests_cant": "The calls that change a program in place (masks of rows, coefficients found by position, repeated updates of one coefficient) depend on all steps before; tests compare a few steps of a few networks.", "anchors": ["pywr-core/src/solvers/clp/mod.rs: setup / solve", "pywr-core/src/solvers/cbc/mod.rs: from_builder / solve", "pywr-core/src/solvers/highs/mod.rs: setup / solve", "pywr-core/src/solvers/microlp/mod.rs: make_problem / solve", "pywr-core/src/solvers/builder.rs"]}
{"id": "C95", "title": "A step returns flows only when its solver found a solution of least cost", "statement": "When the library of a solver reports that it found no solution of least cost, the step fails: no flows are returned and none are saved. When it reports one, the flows of the step are exactly the values of the library for each edge, so that they satisfy all limits, factors and balances of the network at least total cost. HiGHS is restarted once after a run of unknown outcome.", "quantifier": "for every network, every sequence of steps and every possible answer of the library", "why_tests_cant": "Failing and undecided runs of the libraries are rare and cannot be provoked in a unit test.", "anchors": ["pywr-core/src/solvers/clp/mod.rs: to_clp_result / dual_solve / solve", "pywr-core/src/solvers/cbc/mod.rs: solve", "pywr-core/src/solvers/highs/mod.rs: to_highs_model_result / run / solve", "pywr-core/src/solvers/microlp/mod.rs: solve"]}
{"id": "C96", "title": "A run gives every parameter of a network document the value the document defines", "statement": "A network document defines parameters by name, for the whole network or inside a node, each in terms of metrics: numbers, table values, series, states of nodes, deficits, other parameters by name. When a run of the document completes, then for every step the value of every parameter is the one its definition gives from the values its metrics show (delays, windows, thresholds and switches from those of earlier steps), a reference means the parameter of that name of that owner, the solver is given the values of the nodes' metrics, and what metric sets record at the end are the values of their metrics.", "quantifier": "for every document (any nodes, parameters, references and metric sets), any network and solver, any number of steps", "why_tests_cant": "Loading spreads a definition over several internal parameters with made-up names, adds others behind the scenes on first use, and resolves references later in an order of its own; whether names meet as the document says depends on the whole document.", "anchors": ["pywr-schema/src/network.rs: NetworkSchema::add_to_network", "pywr-schema/src/metric.rs: Metric::load / IndexMetric::load / load_as_output", "pywr-schema/src/parameters: add_to_network of each parameter", "pywr-schema/src/timeseries/mod.rs: load_column_f64 / load_df_f64", "pywr-core/src/parameters/mod.rs: ParameterCollection"]}
{"id": "C97", "title": "A document is loaded exactly if everything it refers to exists, wherever it refers to it", "statement": "A document can be loaded exactly if the names of its nodes differ and all tables, series, columns, scenario groups and components that its metrics refer to exist and have the required sizes; what a metric may refer to does not depend on the parameter in which it is used. Parameters with the same name in different nodes, or called like a column or a deficit, do not disturb each other.", "quantifier": "for every document and every network", "why_tests_cant": "The set of documents is unbounded and the loading functions of over thirty types of parameters each pass the context of a reference on by hand.", "anchors": ["pywr-schema/src/metric.rs: Metric::load / IndexMetric::load", "pywr-schema/src/parameters: add_to_network of each parameter", "pywr-schema/src/metric_sets/mod.rs", "pywr-schema/src/network.rs: NetworkSchema::add_to_network"]}
{"id": "C98", "title": "An HDF5 output has the values of a metric set by name, time step and scenario", "statement": "When a run with an HDF5 output completes, the file has for every metric of its set, in a group called as the component and a data set called as the attribute, the value of each time step (row) and scenario (column) - aggregated if the set aggregates -, a table of the times of the steps, and tables from which the scenario of a column can be told; and nothing else. A run is not stopped by the output because of names.", "quantifier": "for every scenario domain, metric set, number of steps and states of the network", "why_tests_cant": "Names decide where data is placed in a tree, so whether values are found, shadowed or refused depends on all names of the set together; rows and columns are filled step by step over the whole run.", "anchors": ["pywr-core/src/recorders/hdf.rs: HDF5Recorder::setup / save / require_metric_dataset / write_scenarios_metadata", "pywr-core/src/recorders/metric_set.rs: OutputMetric"]}
{"id": "C99", "title": "A run of a network document does what its nodes, edges and parameters say", "statement": "When a network document is loaded and a run of it completes, then in every step each input, output and link carries an amount within the values that its limits have in that step (computed from the document's parameters), storages change by what they receive less what they send and stay within their bounds, which may be parameters known at the start of the step, licences are drawn down by the weighted flows of their nodes and are never overdrawn, catchments send exactly their flow, delay nodes send what they received the given number of steps before, allocations are of least cost, aggregated nodes keep the total flow of their members within its limits, and metrics of inflows, outflows, volumes, proportional volumes and deficits, also of aggregated nodes, aggregated storages and licences, show what happened in the network in that step, or in the step before when parameters read them before the allocation.", "quantifier": "for every document of nodes, edges, parameters and metric sets, every number of steps and every sound solver", "why_tests_cant": "It needs parsing of nodes into core nodes, building of parameters, ordering, the linear program and the state update to agree over all steps; feedback (parameters that read volumes that depend on earlier parameters) makes the behaviour depend on the entire history.", "anchors": ["pywr-schema/src/network.rs: NetworkSchema::add_to_network", "pywr-schema/src/metric.rs: Metric::load / NodeAttrReference::load_f64", "pywr-core/src/metric.rs: UnresolvedMetricF64::resolve", "pywr-core/src/network.rs: Network::step"]}
{"id": "C100", "title": "In a document of several networks each network does what its own document says, with the values that links bring from the others", "statement": "When a document of several networks is loaded and a run of it completes, every network ends with the same results as a run of its own document that is given the values of its links from outside, and so does all that holds of such runs (C99). The value a link brings in a step is what its metric shows at the end of that step in the network it comes from if that network is earlier in the document, and at the end of the step before if it is later; in the first step it is the initial value, if one is written. Thus a catchment whose flow is the inflow of a node of an earlier network sends exactly what that node receives in the same step, and a link whose metric is another link passes its value on. Networks that are each acceptable are put together exactly if names of networks are unique, names of links to a network are unique, and every link is from another network of the document.", "quantifier": "for every list of networks with any nodes, edges, parameters, metric sets and links (cycles included), every number of steps and every sound solver", "why_tests_cant": "The order of the networks, the lag of links that point backwards, feedback through several networks and the parameters that read links combine over the whole history; a test sees one arrangement of networks and steps.", "anchors": ["pywr-schema/src/model.rs: MultiNetworkModelSchema::create_model_builder", "pywr-core/src/models/multi.rs: MultiNetworkModelBuilder::build / MultiNetworkModel::step / compute_inter_network_transfers", "pywr-schema/src/metric.rs: Metric::InterNetworkTransfer", "pywr-core/src/metric.rs: MetricF64::get_value"]}
{"id": "C101", "title": "Renaming nodes changes nothing but names, and visitors find what is written", "statement": "If all nodes and virtual nodes of a network are renamed by a function that keeps different names different, and the visitor of node references is applied with the same function, the network is accepted if and only if it was, its nodes, edges, limits, aggregated nodes and licences are those of before, its runs have the same flows, volumes and errors, and its metrics show the same components. Renaming one node to a name that does not occur is such a change. The same holds of a model with parameters in which nodes are renamed wherever they are named, including the parameters nodes have of their own: its metric sets have the same values after every number of steps. The visitor of node references visits exactly the names of nodes written in edges, nodes, virtual nodes, parameters and metric sets; the visitor of metrics every metric and the visitor of paths every file that a network needs.", "quantifier": "for all networks and all models with parameters, all renamings that are injective, all licences, parameter values, solver answers and numbers of steps; for all values of the schema and all functions applied by a visitor", "why_tests_cant": "The claim relates two runs of arbitrary networks and every place of the schema where a node can be named; tests rename a node in one example and compare a few values", "anchors": ["pywr-schema/src/visit.rs: visit_node_references, visit_node_references_mut, visit_metrics, visit_metrics_mut, visit_paths", "pywr-schema-macros/src/lib.rs: PywrVisitAll, PywrVisitPaths, PywrVisitMetrics, PywrVisitReferences", "pywr-schema/src/network.rs: NetworkSchema::{visit_paths, visit_metrics, visit_node_references, build_network}", "pywr-schema/src/edge.rs: Edge", "pywr-schema/src/metric.rs: NodeAttrReference, EdgeReference, NodeComponentReference", "pywr-schema/src/parameters/thresholds.rs: ThresholdParameter", "pywr-schema/src/data_tables/mod.rs: DataTable", "pywr-schema/src/timeseries/mod.rs: LoadedTimeseriesCollection::load_column_f64"]}
{"id": "C102", "title": "Files of data are found, checked and read, and the conversion of old models keeps what they said about them", "statement": "The file of a table, a table array or a series is the absolute path that is written, or the relative path in the directory of data. If a checksum is given, the content is read if and only if the MD5 or SHA256 digest of the file is the one spelled by the hash; a change of the file that changes its digest is an error. The conversion of an old model keeps for each data frame its file, its checksum, its column of times and its keywords, and the series it makes can be loaded; what cannot be kept is an error.", "quantifier": "for all contents of files, digest functions, hashes, paths, directories and all data frames and table arrays of old models", "why_tests_cant": "Whether a hash of any file is accepted and which of all settings of an old model are kept or lost silently is a claim about all inputs; tests check one file with its hash and convert a few data frames", "anchors": ["pywr-schema/src/digest.rs: Checksum::{check, try_from_v1}, validate_hex_digest", "pywr-schema/src/data_tables/mod.rs: make_path, CsvDataTable::load_f64", "pywr-schema/src/parameters/tables.rs: TablesArrayParameter", "pywr-schema/src/timeseries/pandas.rs: PandasTimeseries::load", "pywr-schema/src/timeseries/pandas_load.py: load_pandas", "pywr-schema/src/timeseries/polars_dataset.rs: PolarsTimeseries::load", "pywr-schema/src/timeseries/mod.rs: ConvertedTimeseriesReference::try_from_v1"]}
{"id": "C103", "title": "Python parameters are objects of their own in each scenario, called with what is current", "statement": "A parameter of a Python class is an object made once for each scenario from the arguments of the document. Its methods before and after are called once in each step in which the class has them, and each call is told the step, the scenario and, under each declared key, the current value of the metric or index declared for it and nothing else. The value of the parameter is what the call returns, if it is of the declared type; anything else is an error. What happens in one scenario does not change the values in another, whatever the order in which scenarios are calculated. A class without either method is refused. A parameter of a Python function is calculated before each allocation from the same information and its arguments alone. Arguments reach Python as they are written in the document.", "quantifier": "for all classes and functions with any behaviour, all arguments, declared metrics and indices, numbers of scenarios and steps, and all orders of calls", "why_tests_cant": "What any user-written class is told in any sequence of calls, and whether scenarios can influence each other through shared state, are claims about all classes and interleavings; tests run one counter in two scenarios", "anchors": ["pywr-core/src/parameters/py.rs: ParameterInfo, PyCommon::{update_metrics, update_indices}, PyClassParameter::{setup, call_method}, PyClassParameterBuilder::build, PyFuncParameter::compute", "pywr-core/src/state/mod.rs: FromPyObject for MultiValue", "pywr-schema/src/py_utils.rs: try_json_value_into_py, try_load_optional_py_args", "pywr-schema/src/parameters/python.rs: PythonParameter::add_to_network", "pywr-core/src/network.rs: Network::{step, setup_network}"]}
{"id": "C104", "title": "A converted old model runs over the same dates and scenarios, and every problem is reported", "statement": "Converting a model of version 1 keeps its title, description and minimum version (a title is made up only if there is none), its first and last date, the length of its steps and its scenarios. With steps of whole days the converted model runs over exactly the dates from the first one on at that distance up to the last one, in this order, and with a text for its frequency over the dates that this text means; without scenarios there is a single one, and with groups of scenarios those that the old model simulates. Problems with scenarios and with the network are all reported beside the converted model, those of scenarios first, and a problem in one part leaves the other parts as they would be without it; the conversion does not fail otherwise.", "quantifier": "for all old models: all titles, dates, lengths of steps, groups of scenarios, combinations and networks", "why_tests_cant": "Tests convert a few sample files and compare them with stored results; they cannot show that no part of an arbitrary model influences another, nor that no model makes the conversion fail", "anchors": ["pywr-schema/src/model.rs: ModelSchema::from_v1, From<pywr_v1_schema::model::Metadata>, From<pywr_v1_schema::model::Timestep>, From<pywr_v1_schema::model::Timestepper>, From<TimeDomain> for TimeDomainBuilder, ModelSchema::create_model_builder", "pywr-core/src/timestep.rs: TimeDomainBuilder::build", "pywr-core/src/scenario.rs: ScenarioDomainBuilder::build", "pywr-schema/src/network.rs: NetworkSchema::from_v1"]}
{"id": "C105", "title": "The convert command writes the conversion of every model file, and nothing else", "statement": "Given a directory, the convert command succeeds exactly if the output is an existing directory and each of the input's files whose name ends in `.json` after something else is an old model that can be converted and written; then the output has the conversion of each of them under its own name, and every other file is as it was, also if both directories are the same one. Given a file it succeeds exactly if the output is not a directory but in one, and writes that only. With the option to stop on errors nothing whose conversion had errors is written. However it ends, each file is as it was or a whole conversion of an input. The order in which the file system lists files does not matter.", "quantifier": "for all contents of disks, all inputs and outputs, both options, all readers, converters and printers of models, and all orders of listing", "why_tests_cant": "Which files exist, how they are named, which of them fail and in what order they are listed are unbounded; tests convert a few files in one order", "anchors": ["pywr-cli/src/main.rs: convert, v1_to_v2, handle_conversion_errors"]}
{"id": "C106", "title": "The order in which nodes and edges are listed does not matter", "statement": "A network whose nodes and edges are listed in another order builds exactly if it builds in the first. At any step, after any steps before, the program given to the solver can be made in one order exactly if it can in the other; both programs allow the same flows along the same edges, at the same cost, and have the same flows of least cost. Which of several flows of least cost is taken is left to the solver.", "quantifier": "for all networks whose factors are followed (C56) and whose members of exclusivity groups have constant flow limits (C86), all orders of nodes and edges, all orders of the columns of groups, all states, and all steps before in either order", "why_tests_cant": "There are as many orders as permutations, and columns, rows and chains of edges are found by position; tests list each network once", "anchors": ["pywr-core/src/network.rs: NetworkBuilder::build", "pywr-core/src/solvers/builder.rs: SolverBuilder::create, BuiltSolver::update, ColumnEdgeMapBuilder"]}
{"id": "C107", "title": "A run uses the solver and the settings asked for, each time it is asked", "statement": "From Python, a run starts exactly if the named solver is there, every argument is one of its own and of the right type, and the solver can do all the network asks or is told to ignore that; it is run with the number of threads asked for if parallel. From the command line likewise, with as many threads as asked for if more than one. Giving the same arguments again starts the same run; the ways to run offer the same settings.", "quantifier": "for all networks, solvers, sets of compiled-in solvers, dictionaries of arguments and numbers of threads", "why_tests_cant": "Dictionaries, their values and networks are unbounded; the tests give each builder of settings one call and never a Python dictionary, nor use one twice", "anchors": ["pywr-core/src/solvers/clp/settings.rs: build_clp_settings_py", "pywr-core/src/solvers/cbc/settings.rs: build_cbc_settings_py", "pywr-core/src/solvers/highs/settings.rs: build_highs_settings_py", "pywr-core/src/solvers/ipm_simd/settings.rs: build_ipm_simd_settings_py", "pywr-core/src/models/simple.rs: Model::run_py, run_with_state, run_multi_scenario_with_state", "pywr-core/src/network.rs: setup_solver, setup_multi_scenario_solver", "pywr-cli/src/main.rs: run, run_multi"]}
{"id": "C108", "title": "Whole runs do not depend on the order of nodes and edges", "statement": "Two networks that list the same nodes and edges in different orders, with the same limits, costs, groups, virtual storages and initial volumes, are both set up or both not. Run over the same time steps with solvers that return flows of least cost whenever there are some, whatever happens in one may happen in the other: the same number of steps is done, with the same flow along every edge, the same volume of every storage and virtual storage before and after, and the run ends likewise or with the same kind of error. Where in each step only one flow is cheapest, the two runs are the same.", "quantifier": "for all networks, orders of nodes and edges, lengths of runs, values of metrics in each step and exact solvers", "why_tests_cant": "Runs are of any length and networks of any size and order; tests run each network in one order, and volumes carry differences of one step into all later ones", "anchors": ["pywr-core/src/network.rs: Network::step, Network::compute_components, NetworkBuilder", "pywr-core/src/state/mod.rs: State::complete, NetworkState::add_flow, NetworkState::update_derived_states", "pywr-core/src/solvers/builder.rs: SolverBuilder::create, BuiltSolver::update", "pywr-core/src/virtual_storage.rs: VirtualStorage::before, VirtualStorage::get_available_volume_bounds"]}
{"id": "C109", "title": "Loosening limits never costs more, dearer nodes are not used more, and only relative costs matter", "statement": "Compare two versions of a network, or one network in two scenarios or on two days, in a time step. If no limit is narrower in the second, every allocation of the first is possible in the second; if moreover no cost is higher (and costs of storages are the same), the cheapest allocation of the second costs no more than any of the first. If all costs are multiplied by one positive number, the cheapest flows stay the cheapest. If the costs of some nodes rise by one amount and all else is the same, cheapest allocations send no more through these nodes together than before.", "quantifier": "for all networks, with aggregated nodes, factors, exclusive groups and virtual storages, all pairs of states and all solutions of least objective", "why_tests_cant": "Comparisons are over all networks and all pairs of cost and limit assignments; each test has one network with one set of costs, and compares flows with recorded numbers", "anchors": ["pywr-core/src/solvers/builder.rs: SolverBuilder::create, BuiltSolver::update, update_edge_objectives", "pywr-core/src/node.rs: Node::get_cost, get_bounds", "pywr-core/src/aggregated_node.rs: AggregatedNode::get_flow_bounds"]}
{"id": "C110", "title": "A plain link put into an edge, such as a gauge, changes no other flow and no cost", "statement": "Put a link with a new name and without limits or cost into an edge of a network, leaving all other nodes, limits, costs, aggregated nodes and virtual storages as they are, wherever the new edges are listed. The network can still be built. In every time step, after any steps before, the problem can be posed with the link exactly if it can without; the same flows are possible at the same cost, with the flow of the edge passing into and out of the link; and flows are of least cost with the link exactly if they are without.", "quantifier": "for all networks, with aggregated nodes, factors varying in time, exclusive groups and virtual storages, all edges, all states of a step and all steps before", "why_tests_cant": "Links with one edge in and one out are merged into one column by the solver; tests have a few fixed networks with links and compare each with recorded numbers, never one network with and without a link", "anchors": ["pywr-core/src/solvers/col_edge_map.rs: ColumnEdgeMap", "pywr-core/src/solvers/builder.rs: SolverBuilder::create, BuiltSolver::update", "pywr-core/src/network.rs: NetworkBuilder::build", "pywr-core/src/node.rs: Node::get_bounds, get_cost"]}
