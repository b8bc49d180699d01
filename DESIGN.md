# Formal model of pywr-next core semantics

Target: pywr-next at the pinned commit in `/repo` (Rust, read as text only). Prover: Lean 4.33.0 with Mathlib.
The project is `/verif/lean`; build with `lake build`. Properties are in `properties.jsonl`, the claim-to-theorem
map in `MANIFEST.json`, the log of seeded bugs in `seeded/LOG.jsonl`.

## Layout

* `Verif/Model/*.lean`: definitions transcribed function by function from `/repo`. Every definition has a comment with
  the file and lines it follows and a note on any simplification.
* `Verif/Spec/*.lean`: small specifications, written without the model's helpers where possible.
* `Verif/Lemmas/*.lean`: supporting lemmas.
* `Verif/Props/*.lean`: the property theorems, one file per area. Each theorem is followed by an `example` showing a
  concrete non-trivial case that meets its hypotheses. Where the code does not satisfy a property, the file has a
  `*_refuted` theorem (negation with a concrete witness) and a `*_partial` theorem with the part that does hold.

## Trusted base

* Lean's kernel and the three standard axioms `propext`, `Classical.choice`, `Quot.sound`. No axioms are added; no
  `sorry`, `native_decide` or `bv_decide`.
* The faithfulness of the transcription in `Verif/Model` (by reading; nothing is extracted mechanically).
* Numbers: `f64` is modelled by exact rationals `Rat`. Rounding, overflow, signed zero are not modelled. Where NaN or
  infinities are the point (state setters) an explicit type with those values is used. `f64::MAX` appears as an opaque
  large constant or as the exact rational, as said at each definition. `usize`/`u64` are `Nat` (no overflow), except
  where an underflow is a reachable panic, which is modelled as an error value.
* Panics, `unwrap`, indexing out of range: modelled as explicit error values (`none` / `Except.error`).
* Calendar: `jiff` civil dates are modelled by the proleptic Gregorian calendar (`Model/Calendar.lean`), without time
  zones. Instants are integer numbers of nanoseconds.
* Not modelled: the LP solvers themselves (CLP, CBC, HiGHS, microlp, IPM). Theorems about the LP quantify over every
  vector satisfying the rows. Also not modelled: Python bindings, HDF5/Parquet writers, JSON parsing, rayon's scheduler
  (parallel map is modelled by its specification: apply to each element), logging and timing.

<!-- code -->
## Which code is modelled

Paths are under `/repo/pywr-core/src` unless they begin with `schema`, which is `/repo/pywr-schema/src`. Lines are cited at
each definition.

| model | code | left out |
|-------|------|----------|
| `Calendar` | (jiff civil dates) | range limits, time zones |
| `Timestep` | `timestep.rs` | parsing of frequency strings (polars) |
| `Scenario` | `scenario.rs` | |
| `State` | `state/{mod,flow,storage,virtual_storage}.rs`, `virtual_storage.rs`, `node.rs` (initial volumes, `before`) | parameter values, see `Values` |
| `Values` | `state/mod.rs` 191-273, 786-1139 | |
| `Topology` | `network.rs` (`NetworkBuilder`), `node.rs` (`NodeBuilder`), `edge.rs` | costs, limits |
| `Columns`, `Lp`, `Solver` | `solvers/builder.rs`, `solvers/col_edge_map.rs`, and what they call in `node.rs`, `aggregated_node.rs`, `virtual_storage.rs`, `edge.rs` | failing look-ups of constants at setup |
| `Factors` | `aggregated_node.rs` 14-33, 723-1086 | |
| `Simulation` | `network.rs` 757-830, 995-1074, `solvers/clp/mod.rs` 388-434 | the solver, which is any function |
| `Backends` | `solvers/{clp,cbc,highs,microlp}/mod.rs` | the libraries themselves: setters by their documentation, solutions and statuses are any answers; presolve, logging, threads |
| `Stepping` | `models/simple.rs`, `network.rs` (`step`, `step_par`, `step_multi_scenario`) | timing |
| `Multi` | `models/multi.rs` | recorders, state after a failed step |
| `Params`, `ParamRun` | `parameters/mod.rs`, `metric.rs` (resolution), `network.rs` 588-629, 995-1074 | keys of multi-valued parameters |
| `Kinds` | `parameters/{aggregated,aggregated_index,asymmetric,constant,deficit,delay,difference,discount_factor,division,indexed_array,max,min,multi_threshold,negative,negativemax,negativemin,offset,polynomial,rolling,threshold,vector}.rs` | variable API, multi-valued parameters |
| `Variables` | `network.rs` 1320-1555, `parameters/{constant,offset,activation_function}.rs`, `parameters/profiles/rbf.rs` (variables) | |
| `Temporal`, `Run` | `parameters/{delay,rolling,asymmetric,threshold,multi_threshold}.rs` | |
| `ArrayParam` | `parameters/{array,constant_scenario}.rs` | |
| `Curves` | `parameters/{interpolate,muskingum}.rs`, `parameters/control_curves/*.rs` | |
| `Profiles` | `parameters/profiles/*.rs` | the exponential and square root of radial basis functions are arbitrary functions |
| `AggFuncs` | `agg_funcs/mod.rs` | Python functions |
| `Aggregator` | `recorders/aggregator/mod.rs` | negative day counts |
| `Memory`, `Outputs` | `recorders/{memory,csv,metric_set}.rs` | number formatting except decimal places, HDF5 |
| `Hydropower` | `utils.rs`, `parameters/hydropower.rs` | |
| `SchemaNodes` | `schema/nodes/*.rs` | loading of metrics from tables and time series |
| `SchemaNetwork` | `schema/{network,edge}.rs`, `schema/nodes/virtual_nodes/*.rs` | tables, time series |
| `SchemaParams` | `parameters/{difference,aggregated}.rs`, `metric.rs` (volumes) | |
| `IpmIndices` | `ipm-common/src/lib.rs` | widths of integers |
| `IpmSolve` | `ipm-simd/src/*.rs` | rounding, `NaN` |
| `IpmLp` | `solvers/ipm_simd/mod.rs`, `required_features` in `network.rs` | |
| `Whole` | `metric.rs` 136-321, `network.rs` 588-629, 757-830, 995-1074 (the parts above together) | maximum flows of nodes as metrics before an allocation |
| `Typed` | as `Whole` and `Kinds`; `control_curves/simple.rs` 35-70, `control_curves/interpolated.rs` 35-66, `profiles/monthly.rs` 63-88 as parameters of a run | parameters with several values |
| `Tables` | `schema/data_tables/{mod,scalar,vec}.rs` | reading of CSV text (quotes, byte order), paths, checksums, text of numbers |
| `Load` | `schema/metric.rs`, `schema/parameters/*.rs` (`add_to_network`), `schema/network.rs` 521-660, `schema/timeseries/mod.rs` 189-325, `schema/nodes/core.rs` 757-830 | units and checksums, RBF, hydropower, HDF5 arrays, Python, series of indices; what components show is given |
| `Hdf` | `recorders/hdf.rs` | the HDF5 library beyond paths, groups and rows; errors of the disk; version attribute |
| `Document` | `NetworkSchema::add_to_network`, `UnresolvedMetricF64::resolve`, `Network::step` as a composition of `SchemaNetwork`, `Load` and `Simulation` | the parameters that piecewise storages make must be listed in the document; power of turbines; several scenarios |
| `MultiDocument` | `schema/model.rs` 640-977, `core/models/multi.rs` as a composition of `Document` and `Multi` | several scenarios; links of indices (`todo!` in the code); networks in other files |
| `Visit` | `schema/visit.rs`, visitors derived by `pywr-schema-macros/src/lib.rs` 39-590, `schema/network.rs` 172-304, `schema/edge.rs` 45-55, visitors in `schema/metric.rs` and `virtual_nodes/mod.rs` | values of the schema only by the shape that visitors tell apart |
| `Files` | `schema/digest.rs`, `make_path` (`data_tables/mod.rs` 138-153), the beginnings of the loaders of tables, table arrays and series (`pandas.rs`, `polars_dataset.rs`), `timeseries/mod.rs` 470-550, `timeseries/pandas_load.py` | paths of Unix; digests are arbitrary functions; files do not change between check and reading; parsing by Pandas and Polars |
| `Cli` | `pywr-cli/src/main.rs` 179-267 | links, permissions, full disks, messages; reading and printing of JSON |
| `Settings` | `core/solvers/*/settings.rs`, `run_py` (`models/simple.rs` 652-702), thread pools (512-522, 568-574), `network.rs` 670-711, `pywr-cli/src/main.rs` 269-409 | Python values other than integers and Booleans convert to nothing; settings of interior point methods that keep their defaults; reading and building of the model before |
| `V1Model` | `schema/model.rs` 38-145, 518-597 (metadata, time, `from_v1`, the domain of a model), `core/models/mod.rs` 69-74 | parsing of frequencies by `polars` is an arbitrary function |
| `Python` | `core/parameters/py.rs`, `state/mod.rs` 198-222, `py_utils.rs` and `parameters/python.rs` of the schema (arguments and kinds of return) | classes and functions of Python are arbitrary functions of the object, of the arguments and of what the call is told; dates within the information, loading of modules, the text of errors, threads |
| `V1` | `schema/v1.rs`, `schema/network.rs` (`from_v1`), `schema/{edge,metric}.rs` (conversion), and the conversions of the types listed in the file in `schema/{nodes,parameters}` | recorders of version 1 (dropped by the code), parsing of JSON, types not listed |
| `V1Scenario` | `schema/model.rs` 195-262, 331-360, 561-588 | - |
| `Timeseries` | `schema/timeseries/{align_and_resample,mod}.rs` | reading of files, time zones, polars itself (by its documentation), columns as whole numbers |

Not modelled: `solvers/ipm_ocl`, `ipm-ocl`, `coin-or-sys`,
`recorders/py.rs`, the parsing within `schema/timeseries/{pandas,polars_dataset}.rs`, the parts of version-1 documents listed above,
`schema/mermaid.rs`, `pywr-cli` but for `convert`, `run` and `run-multi`, `pywr-python`.

## Where the code does not do what is claimed

Each is proved by a theorem whose name ends in `_refuted`, `_false` or `_case` on a concrete input; the claim without that
case is proved beside it.

* C07: ids of scenarios selected by a subset or by combinations differ from those of the full domain.
* C13: rolling licences return wrong amounts for long or unequal steps and when reset to the maximum. C14: a reset on a day of the
  year is skipped if no step starts on it.
* C21: exclusivity uses the bounds at setup, so later bounds are not respected; a minimum of active nodes has no effect for
  nodes without minimum flow.
* C22, C23: factors that are zero, negative or invalid are accepted or panic; right-hand sides that vary are ignored; relations that
  share nodes are merged into one row; storages have the wrong sign.
* C31-C33, C35, C37: interpolation rejects non-increasing tables lazily; control curves with the wrong number of values are
  accepted; monthly interpolation overshoots during the last day of a month; the drawdown profile falls by two steps on one day.
* C38, C40: a parameter reported as missing may exist with another type; integer references ignore the phase.
* C39: values set for constants are never used; offsets panic; transformed values are read back transformed.
* C41-C44: day-count periods restart at every value; the last record of an aggregation is short; sums count a value on both sides
  of a boundary; the last outer period of a nested aggregation is lost; single values are passed on without their function.
* C47: a failed step has already advanced the earlier scenarios. C52: negative durations print wrongly. C53: interior point solvers never
  complete a step. C54, C55: indices out of range accepted; labels not unique.
* C60: a licence whose maximum narrows below its volume panics although the program was solved; so does a rolling licence when steps
  get longer.
* C66: a river with routing and loss reports the flow before the loss; rainfall of a reservoir is always reported as 0; evaporation
  names a node that does not exist (a reservoir with evaporation never builds, since the node made for it is an input
  with an incoming edge).
* C68: the soft maximum of a link with both soft limits is a hard limit and its maximum flow is ignored; the cost of a gauge's bypass
  acts as its least flow.
* C70: factors of a virtual storage are paired with core nodes; its cost has no effect; parameters defined on it are never added.
* C72: an aggregated node of outputs reports 0 by default.
* C73: the memory recorder's data frame names the recorder in its metric-set column; a metric set without metrics panics; wide CSV
  files keep two decimals.
* C89-C91: one node or parameter of a type without conversion ends the conversion of the whole network; made-up names collide for a
  node and a parameter of one name and for unnamed parameters of nodes; parameters inside a control curve without values are
  added twice; virtual nodes and indices keep references to data frames that have become timeseries; thresholds on virtual
  storages refer to ordinary nodes.
* C94: HiGHS gets varying coefficients cut off at 10^10; Cbc accepts networks whose exclusive members have varying limits, but the first
  step fails for missing features. C95: Cbc's flows are used although it reports that there is no solution.
* C96, C97: a node parameter called `deficit`, or called like a column of a series with the node's name, is taken for it, and a
  scenario group for a column; references to parameters of the own node are refused in most places (all but aggregations, indexed
  values, control curves and multi-thresholds, and there not everywhere); two nodes cannot have thresholds of one name that
  return values; a multi-threshold of a node is added as one of the network; parameters of virtual nodes are not added.
* C98: the aggregation of a metric set is ignored by HDF5 output; a component called `time`, one called like the path of a data
  set, or a metric listed twice stops the run; with subsets of scenarios the indices in the file are not those of the groups.
* C92, C93: a scenario slice that consists of an end only is ignored; each of several splits of a river gets less than its factor of
  the flow beyond the residual flow.
* C77: the SIMD interior point solver ignores minimum flows, and no feature is asked for them; a storage without edges gives an empty
  row, which it cannot treat (C78).
* C82: a ring of links with a shortcut is accepted by the builder and gives dependent rows, so a pivot is zero and the solver divides
  by it.
* C83: the proportional volume that parameters see before an allocation is relative to the maximum volume of the step before.
* C84: tables of single values with three or four labels of rows or of columns are refused (they are loaded with two), though the book promises
  up to four.
* C84: a file without a column of values, or without a row of values, makes loading panic; numbers of 2^64 and more are given as the index
  2^64 - 1; in tables with labels of rows, a later row with the same labels replaces a number even if it is not a number itself.
* C85: for steps of unequal length (months) all windows have the length of the first step; series are accepted with data of other dates.
* C85: a series with unequal gaps (such as monthly values) makes loading panic; values of a coarser series that are not on the grid of steps are lost.
* C85: a reference whose name is taken (a scenario group named like a column, a parameter of a node named like the series) is given the data
  of the other parameter. The mean of the last step may be over a part of the step only.
* C103: the arguments of a Python class are converted once and shared by its objects for all scenarios, so that one scenario can affect
  the values of another; whole numbers from 2^63 on reach Python as floats.
* C104: a time step of zero days in a version 1 document makes its conversion panic, where other faults are reported.
* C100: a comment in `pywr-schema/src/model.rs` (929) says a link whose metric is a link fails to load; it loads and passes the value on
  (`C100_link_of_link_case`, `C100_passed`).

Read in the code, not proved:

* A deficit (`parameters/deficit.rs` 36-48) evaluates the maximum flow of its node anew after the allocation (`metric.rs` 186-190). If that
  refers to a value calculated after the allocation, the deficit may use another maximum flow than the allocation did.
* The maximum flow of a node as a metric is not a dependency in the order of parameters, so a parameter reading it before the allocation may
  see values of the step before. A node whose maximum flow is that metric of itself recurses without end.
<!-- /code -->

## Plan per property

| id | modelled | how proved |
|----|----------|------------|
| C01 | fixed-duration generator loop and builder error | induction on remaining length; closed form `start + i*dur`, completeness |
| C02 | frequency generator, with an abstract strictly increasing `start + k*span` and the calendar month instance | loop invariant; contiguity; month addition strictly monotone |
| C03 | civil date, day of year, leap rule, index function | case analysis over months, arithmetic; iff statement |
| C04 | domain builder, decode loop | decode/encode round trip by induction over groups; `Nodup` and completeness of the list |
| C05 | subset filter path | list filter lemma, count = id |
| C06 | scenario maps for the slice, index and combination paths | per path; position-in-list lemma |
| C07 | `schema_id` in both paths | expected refuted (radix order differs); partial: single group or equal route |
| C08 | StorageState ops, clamp with tolerance | induction over list of steps, exact when within bounds, error bounded by n*tol in general |
| C09 | reset + add_flow fold | induction over edges; permutation invariance |
| C10 | setters over values with NaN | case analysis, frame property |
| C11 | storage bounds handed to solver and finalise | invariant by induction over steps |
| C12 | VS bounds, factors, update | algebra plus invariant |
| C13 | VS before + history queue | invariant for daily step and initial-volume reset; refutations for the other configurations |
| C14 | reset decision | decision logic both directions; induction between resets; refutation for skipped day |
| C15 | is_active | decision logic against the cyclic interval specification |
| C16 | ColumnEdgeMapBuilder and create_columns | invariant over insert sequence; connectivity relation |
| C17 | mass balance rows and collapse | iff theorem through column expansion |
| C18 | Lp row bound ops | fold = intersection; state independence |
| C19 | LpBuilder::build | decode of CSR = rows; dedup index validity |
| C20 | edge cost, node cost | finite sum exchange |
| C21 | binary rows | invariant that fixed rows survive every step; partial: constant bounds; refuted for variable bounds and for `min_active` without minimum flows |
| C22 | factor pairs | algebra by induction over nodes |
| C23 | constant vs dynamic evaluation | refuted for the coefficients right-hand side; partial for others |
| C24 | initial volume distribution | induction over chain |
| C25 | delay queue | invariant over steps |
| C26 | rolling queue | invariant over steps |
| C27 | array parameters with subset columns | composition with C06 |
| C28 | asymmetric switch | induction vs temporal specification |
| C29 | threshold and multi-threshold | induction vs temporal specification |
| C30 | Muskingum | field algebra |
| C31 | interpolation | induction over table |
| C32 | control-curve index | induction over curves |
| C33 | control-curve interpolation | induction; refutation for short lists (panic) |
| C34 | apportion, volume between | algebra |
| C35 | monthly profile | convexity; refutation for sub-daily last day |
| C36 | weekly profile | bounds and convexity |
| C37 | uniform drawdown | partial reset > 29 Feb; exact value for resets in Jan/Feb and on 29 Feb, even fall refuted there |
| C38 | build loop | invariant; termination measure; iff acyclic (least fixed point) |
| C39 | variable set/get, constant evaluation | refuted for constants (setup-only evaluation) and offset (panic); partial: read back, failure atomicity, kinds of values taken, all scenarios at once as each in turn, order of sets |
| C40 | resolve decision table and two-phase evaluation | case analysis plus an execution invariant |
| C41 | split loop | fuel-free recursion; partition theorem; refutation for unaligned day counts |
| C42 | process_value fold | invariant; refutation for duration of the final record |
| C43 | nested aggregators | refuted by `finalise` discarding a completed period; partial |
| C44 | memory aggregation | sum exchange; refuted for single value |
| C45 | Model::step/run | induction |
| C46 | step / step_par over list of states | map/fold equivalence |
| C47 | step with failing scenario | refuted; partial: the timestep index is not advanced |
| C48 | OtherNetworkIndex and lookup | arithmetic over lists |
| C49 | NetworkBuilder maps | induction over declarations |
| C50 | aggregation functions | list lemmas, permutations |
| C51 | hydropower | field algebra |
| C52 | duration formatting, whole days | arithmetic; refutation for negative durations |
| C53 | write-back of completing and of interior point solvers | algebra for the former, refutation for the latter |
| C54 | combination path of the domain builder | list induction; sorted set lemma; refutation for out-of-range indices |
| C55 | label joining | injectivity of joining for labels without separator; refutation otherwise |
| C56 | creation and update of the whole program | invariant over steps, feasibility iff through per-row meaning, for `FactorsOk` and no exclusivity |
| C57 | radial basis profile: weights are any solution of the system; the linear solver is not modelled | sum identity, list positions |
| C58 | daily (with the completion of 365 values in the schema), diurnal | list positions |
| C59 | build loop | success iff every definition is calculable in a least fixed point that does not depend on order |
| C60 | composition of initial state, `before`, volume bounds, program of the step, solver as an oracle, `complete` and `after` over any number of steps | invariant linking the state to the program, by induction over the run; exclusive groups through C86; failure cases characterised; narrowing bounds refuted; rolling licences by an invariant on the volume plus what the window will return |
| C61 | same | sum over nodes by mass balance of links, induction over steps |
| C62 | same, complete oracle | no flow is a solution of every step |
| C63 | `ActivationFunction`, variables | exact characterisation by nearest points; induction over histories (C39) |
| C64 | `NetworkSchema::validate` | exact characterisation of counting by names |
| C65 | `add_to_network` and connectors of all 17 node types, `Edge::iter_node_connection_pairs`, name resolution of the core builder | structural induction over the compilation; flows of a node are summed over the connections of its edges; holds for every `Allowed` flow |
| C66 | `create_metric` of all node types and of edges | same sums as C65; refutations universal and by a concrete network |
| C67 | `LossFactor::load` with the factors of aggregated nodes | C22 for pairs of nodes, carried to the flows along schema edges |
| C68 | same as C65 | limits of the core nodes and of the aggregated nodes created for soft constraints, summed to the node; refutations universal and by a concrete network |
| C69 | virtual aggregated nodes, `nodes_for_flow_constraints` of all node types | the core nodes of a component carry its flow (case analysis over types and components); relationships by induction over factors |
| C70 | virtual storages of the schema, `Frag.resolveVs` | the summed use of core nodes is that of the components by C69; refutations by a concrete network (factors) and for every network (cost, parameters) |
| C71 | piecewise storage with its generated parameters (`Model/SchemaParams.lean`), initial volumes, aggregated storage metrics | induction over the steps: sizes telescope; pouring as prefix sums clamped; range from the volume limits of the stores and C65 |
| C72 | `create_metric` of virtual aggregated nodes and storages, their metrics in `metric.rs` | names of aggregated nodes are unique in a built network, so the index read is that of the node; kinds of the core nodes of each component by cases |
| C73 | `metric_set.rs`, saving in `memory.rs`, both formats of `csv.rs`, the calls in `network.rs`; metrics are arbitrary functions of the state | aggregation commutes with forgetting the numbers (relation `Same`, induction through all levels), hence a set yields for all metrics or none; recorders over the list of frames by induction; columns by position, records by their keys |
| C74 | nothing new: over the allocation problem of C20/C56 | a change with room stays allowed for all small multiples (finitely many linear constraints), so at least cost it does not lower the cost; ways as an inductive relation, unit flows along them summed by node; merit order from rerouting between parallel links; carried over to all steps of a run |
| C75 | nothing new: the schema of C64-C72 | lanes of a node have the same neighbours and are referred to together, hence are side by side and alike in the built network; then C74 (merit order) by name. Links with both soft limits: the second aggregated node tells the lane of the soft maximum apart but has no limits, so a merit order for groups with room is proved and used |
| C76 | `Model/ParamRun.lean`: the schedules of C38 with values, internal states, nodes and solver as arbitrary partial functions | a schedule without forward references is a set of equations (induction over the schedule); runs and histories obeying the equations of `Spec/ParamRun.lean` correspond step by step; order and extra parameters follow because the equations do not mention schedules |
| C77 | `Model/IpmLp.lean`: the rows, bounds and objective of `ipm_simd/mod.rs`, over the columns of C16 | rows as in C17/C20 by induction over the nodes; shared rows get the smaller bound; refutation for minimum flows by a concrete network |
| C78 | `Model/IpmIndices.lean`: the index lists of `ipm-common` as flat lists grown entry by entry; `Model/IpmSolve.lean`: decomposition and substitution over an ordered field with a square root | invariant over the entries added (each listed entry carries exactly the common columns; unlisted entries are structurally zero); the data are a Cholesky factor by induction over rows; pivots positive because a zero pivot gives a vector on which the positive definite normal matrix vanishes |
| C79 | `Model/IpmSolve.lean`: right-hand side, directions, step length, update | Newton equations from C78; positivity from the step length; residuals are linear, so they scale; the gap by orthogonality of the directions |
| C80 | `Model/IpmSolve.lean`: stopping test and loop | weak duality with residuals, Cauchy-Schwarz |
| C81 | `Model/IpmSolve.lean`: the loop over four lanes | a finished lane does not move, so each lane follows its own iteration and waits; induction over iterations |
| C82 | the programs of C77 in the solver of C78 | a combination of rows that vanishes is constant along edges between links, and zero where an edge leaves the links; conversely the links of a component that meets no other node give such a combination |
| C83 | `Model/Whole.lean`: metrics of components (`metric.rs`) read from the network state; the calculations of C76 instantiated with the simulation of C60, constants folded into the network at setup | a history that obeys the definitions (C76) gives inputs for the simulation, step by step; C60 and C09 then say what flows are allowed and seen |
| C84 | `Model/Tables.lean`: the loaders for rows, columns and both, look-up, references, collections (`data_tables/*.rs`) | induction over records: the hash map holds for each key the last cell with these labels; uniqueness of labels gives the plain statement; three and four labels in one direction by a case |
| C85 | `Model/Timeseries.lean`: sorting, slicing, the gap, windows, upsampling with forward fill, the count of rows (`align_and_resample.rs`), references (`timeseries/mod.rs`); the polars operations by their documentation | all three ways give the grid from the first row on; counting shows that the grid is that of the steps; values by the definition of windows; steps of unequal length, gaps that the step does not divide and colliding names by cases |
| C86 | the model of C20, C21 and C56, with binary columns and rows | refinement: the program with binaries and the program of the same network without exclusivity and without limits on the members run in lockstep (same variable rows in every step, by a homomorphism that appends fixed rows); the difference is the rows of binaries, which mean a choice of groups; members whose limits vary are left out (refuted in C21) |
| C87 | the run of C76 with the calculations and internal states of the parameter types filled in (`Kinds`) | refinement: the run with queues, windows and flags has the same reports as equations between values only; the internal states are eliminated by induction over steps, parameter by parameter; volumes between curves build only on metrics known early (C87_between); offsets refuted (panic) |
| C88 | `Model/Typed.lean`: the networks of C83 with the parameter types of C87 | the equations of C83 for each parameter are those of C87 for its type, so the report of a run is that of a history of values, flows and volumes only; rules (return flows, demand restrictions, control curves, deficits) follow from this, C60 and C83 |
| C89 | `Model/V1.lean`: documents of version 1 as trees (parameters with attributes that are numbers, names, tables or parameters), the conversion with its state (counter, extracted parameters and timeseries) and its two kinds of failure, errors and `todo!()` | induction over the lists of components; the result is described by one outcome per component |
| C90 | the same model; the meaning of an attribute is a relation between the tree and a metric of the new network (`Spec/V1.lean`) | mutual induction over values, parameters and attribute lists with the extracted parameters as an invariant; the passes that rewrite references commute with it |
| C91 | the same model | the names allotted while a component is converted are those written in it and made-up ones with numbers between the counter before and after; made-up names are injective in base and number |
| C92 | `Model/V1Scenario.lean` on top of `Model/Scenario.lean`; `Model/V1.lean` for splits | the members that the built domain simulates, by C05 and C54; flows through a converted split by the relations of C93 |
| C93 | `Model/SchemaNodes.lean`, `Model/SchemaNetwork.lean` as for C65 | the relations of the aggregated nodes of the splits, solved for the lanes; what leaves a slot is part of what leaves its lane |
| C94 | `Model/Backends.lean`: what each call of Clp, Cbc and HiGHS leaves in the library, and the problem made for Microlp | invariant over steps: columns, bounds and rows of the library are those of the builder's program with its coefficients put in place; then C86 |
| C95 | `Model/Backends.lean`: statuses and values from the library to the result of the step | case analysis of the answers; with C94 the flows are allowed and of least cost |
| C96 | `Model/Load.lean`: loading of metrics and parameters of documents, then `Model/Kinds.lean`. Specification in terms of owners and names only (`Spec/Load.lean`) | a Hoare logic for loading gives for each parameter what it has become; C87 gives its values in the network; translation kind by kind |
| C97 | `Model/Load.lean`, specification `Spec/LoadOk.lean` | equivalence by rules for success of each loading step; witnesses where names or references fail |
| C98 | `Model/Hdf.lean`: `recorders/hdf.rs` and the tree of an HDF5 file; specification by paths (`Spec/Hdf.lean`) | invariant: a file is its data sets, no path through another, and the groups on the way; rows by induction over steps |
| C99 | `Model/Document.lean`: a document's nodes (C64-C71), parameters (C96) and the simulation (C60) put together; specification `Happens` in terms of the document (`Spec/Document.lean`) | the story of C96 is a simulation in the sense of C60; refinement of what metrics show to flows of the network; corollaries by node type from C65-C68; budgets of licences by induction over the steps; bounds of volumes are parameters that are settled at the start of a step; metrics of aggregated nodes and storages and of licences as totals over what they refer to; piecewise storages as one storage: the parameters they make are computed in the story (`C99_made`), and the sum of the stores starts, changes and stays within bounds as C71 says |
| C100 | `Model/MultiDocument.lean`: documents of several networks, from `Model/Document.lean` and `Model/Multi.lean`; specification `Together` (`Spec/MultiDocument.lean`) | each network's part of a run is a run of its document with what it is given (induction over steps, C48 for links), so the story of C96/C99 exists for each; links read that story; corollaries for catchments and links of links |
| C101 | `Model/Visit.lean`: visitors over values of the schema; `Spec/Rename.lean`: renaming of networks, core networks and metrics, and inductive relations of what is written where | naturality: compiling, building and every step of a run commute with renaming up to the names in errors (each function in turn, `Lemmas/Rename*.lean`); visitors by induction over values. Refuted in part: arrays of metrics (`ThresholdParameter`) are not visited by the visitor of metrics, files of tables are not visited by the visitor of paths; `_partial` for the rest. Documents with parameters (`Spec/RenameDocument.lean`): loading commutes with renaming for any two worlds related by a map (`Lemmas/Worlds.lean`, `Lemmas/RenameLoad.lean`), so a whole run shows the same values (C101_document_partial); errors are not compared. Partial since names of nodes must be apart from those of series: parameters of nodes and columns of series share their names, and a metric of a series silently shows the parameter of a node that has the name of the series (C101_document_series_refuted) |
| C102 | `Model/Files.lean`: paths, checksums, the conversion of data frames, the call of Pandas; specification `Spells`, `At`, `Times` (`Spec/Files.lean`) | hexadecimal spelling is unique (induction over bytes), so a check means equal digests; decision logic of paths and conversion. Refuted in part: hashes in upper case fit no file; checksums of data frames other than MD5 and SHA256 are dropped without an error; a column of times given by a number other than 0 is lost; files with an upper-case extension get a keyword twice |
| C103 | `Model/Python.lean`: the conversion of arguments, the information object that is kept and updated, calls of methods and functions, the conversion of what they return, the choice of phases, set-up and sequences of calls of several scenarios that share the arguments; specification `Same`, `Sees`, `Gives`, `Runs`, `Told` (`Spec/Python.lean`) | refinement by induction over calls: the kept information object is as good as a new one in each call; scenarios are independent in any interleaving if the class leaves its arguments alone. Refuted otherwise: lists and dictionaries among the arguments are shared by the objects of all scenarios. Refuted too: whole numbers from 2^63 on become floats |
| C104 | `Model/V1Model.lean`: `ModelSchema::from_v1` with metadata, time and the parts of C88-C92, and the dates and scenarios of a new model; frequencies are parsed by an arbitrary function | composition of C01, C02 and C92; what is reported and kept stated part by part. Refuted: a step of zero days (or in the slice of a group) makes the conversion panic instead of being reported |
| C105 | `Model/Cli.lean`: the convert command over a disk of files and directories, with any reader, converter and printer; `Spec/Cli.lean`: which files are inputs, what they become | induction over the entries listed: exact condition of success and effect, from which independence of the order follows (`_partial`: if there is no error); invariant for whatever end. Refuted: without the option to stop on errors a file that is no old model ends the conversion all the same, and which others are converted depends on the order |
| C106 | no new model: `Model/Topology.lean`, `Model/Solver.lean`; `Spec/Reorder.lean`: the same nodes and edges elsewhere, flows given by the ends of edges, what a program allows and at what cost | C49 for building; C86 gives what a program allows by position (with a choice of groups), C20 its objective; both are shown to be sums and conditions over nodes and edges known by name, so invariant under permutation; that a network is one C86 covers does not depend on the order either (chains of edges and groups are carried over). Any permutation is of the form asked (`C106_any`). Exclusivity groups whose members have varying limits, and factors outside C56, are left out |
| C107 | `Model/Settings.lean`: builders of settings from dictionaries that are shared with the caller, `run` of Python, `run` and `run-multi` of the command line, the check of features, thread pools; `Spec/Settings.lean`: arguments that fit, what they ask for, what solvers take | decision logic over arbitrary dictionaries, in both directions; C77 for features. Refuted: entries are taken out of the caller's dictionary, so that a second run with it has the default settings; `ignore_feature_requirements` cannot be given to Clp, Cbc and HiGHS from Python; `threads` without `parallel` does nothing in Python; `run-multi` drops its `--threads`; OpenCL solvers accept any arguments |
| C108 | the runs of C60 (`Model/Simulation.lean`) of two networks related as in C106; `Spec/ReorderRun.lean`: nodes are known by name, edges by their ends, virtual storages by place; a solver that finds a best solution if there is one | induction over the run: states before, programs (C86, C106), flows, states after; for runs with one cheapest flow, equality; else a solver for the other order is given that makes the same choices. Conditions of C60. Metrics are inputs of a step: that parameters have the same values is assumed. An exact solver is assumed: with rounding, orders may differ |
| C109 | programs of two networks, or of one in two states (`Model/Solver.lean`); `Spec/Statics.lean`: limits compared by value, constants or parameters, solutions of least objective | the flows of a program are the allowed ones (C86) and its objective is the total cost (C20); the allowed flows grow with the limits; exchange of the two cheapest allocations for the claim on dearer nodes. Members of exclusive groups keep their limits, constants do not become parameters (a parameter adds the solver's largest number as a limit), factors keep their values |
| C110 | programs of a network with and without a link on one edge (`Model/Solver.lean`, `Model/Topology.lean`); `Spec/Insert.lean`: the two networks by names of nodes and ends of edges, flows that pass through the link | sums over edges at each node are the same, so the allowed flows and the total cost are (C86, C20); chains of edges are mapped back, so that the conditions on varying factors hold with the link if they do without. The largest number of the solver is not above the largest float, as with CBC, CLP and HiGHS; with microlp it is infinity, and the claim is then about flows up to the largest float |

<!-- axioms -->
## Axioms of each theorem

From `#print axioms` on every theorem of `MANIFEST.json`. Names are without the leading `Verif.`.

* no axioms (4): Rename.C101_changes, Rename.C101_moved_partial, Rename.C101_replaced, Profiles.C37_wrapped_refuted.
* `propext` (28): Scenario.C07_schema_id_refuted, Values.C10_failed_write_no_effect, Values.C10_write_frame, Rename.C101_visited_metrics_partial, Rename.C101_visited_metrics_refuted, Rename.C101_visited_paths_refuted, Rename.C101_moved_refuted, Python.C103_phases, Python.C103_arguments_partial, Python.Cases.C103_arguments_refuted, Temporal.C25_delay_zero_general, ArrayParam.C27_empty_subset_build_error, Variables.C39_takes, Run.C45_past_end, Run.C45_not_past_end, Run.C45_interrupted, Run.C45_fuel, Run.C46_step, Run.C46_alone, Run.C47_not_atomic_refuted, Run.C47_recorder_refuted, Time.C52_negative_duration_refuted, Scenario.C54_out_of_range_accepted_refuted, Scenario.C55_label_not_unique_refuted, V1.C89_virtual, V1.C90_unaware, Scenario.C92_end_only_refuted, Scenario.C92_slice_and_combinations_refuted.
* `Quot.sound`, `propext` (51): Time.C02_fixed_step_duration, Scenario.C07_schema_id_partial, Scenario.C07_combination_ids_unique, Values.C10_write_fails_iff, Values.C10_history, Values.C10_never_nan, Values.C10_initial_no_nan, Values.C10_transfer_accepts_nan_refuted, Rename.C101_built, Rename.C101_metrics, Rename.C101_virtual_metrics, Rename.C101_references, Rename.C101_renamed_references, Rename.C101_untouched, Rename.C101_visited_paths_partial, Rename.C101_renamed, Rename.C101_agree, Files.C102_converted_table, Reorder.C106_any, Settings.Cases.C107_again_refuted, Settings.Cases.C107_ignore_refuted, Settings.Cases.C107_threads_refuted, Settings.Cases.C107_multi_refuted, State.C14_day_of_year_skipped_refuted, Solver.C16_no_edges, Solver.C18_total, Solver.C22_coefficients, Temporal.C26_rolling_warm, Temporal.C26_window_content, Temporal.C26_min_exceeds_window, ArrayParam.C27_array1_value, Curves.C32_index_total, Profiles.C36_accepts, Params.C38_terminates, Params.C38_missing_name_false, Agg.C41_days_refuted, Run.C45_error, Run.C46_parallel, Run.C46_parallel_fails, Agg.C50_integers, Agg.C50_sum_overflow, Profiles.C57_variables, Profiles.C58_daily_accepts, Ipm.C78_empty_row_refuted, Coupled.C83_reads, Tables.C84_reference, Tables.C84_kinds, Tables.C84_collection, Tables.C84_no_column_refuted, V1.C90_curves, Scenario.C92_reported.
* `Classical.choice`, `Quot.sound`, `propext` (576): Time.C01_fixed_time_domain, Time.C01_fixed_count, Time.C02_non_positive_rejected, Time.C02_frequency_time_domain, Time.C02_tiling, Time.C02_month_anchor, Time.C03_index_is_leap_slot, Time.C03_index_leap_stable, Time.C03_leap_day_own_slot, Time.C03_fractional, Scenario.C04_full_domain, Scenario.C05_subset_domain, Scenario.C05_subset_mem, Scenario.C06_sim_schema_roundtrip, Scenario.C06_map_length, Scenario.C07_same_id_partial, State.C08_water_balance, State.C08_water_balance_exact, State.C08_step_balance, State.C08_imbalance_panics, State.C09_node_flows, State.C09_node_flows_observable, State.C09_order_independent, EndToEnd.C100_run_partial, EndToEnd.C100_accepts, EndToEnd.C100_flows, EndToEnd.C100_passed, EndToEnd.Cases.Three.C100_link_of_link_case, Rename.C101_compiles, Rename.C101_runs, Rename.C101_one, Rename.C101_document_partial, Rename.C101_document_one_partial, Rename.DocumentCases.C101_document_series_refuted, Files.C102_checked, Files.C102_read, Files.C102_place, Files.C102_apart, Files.C102_change, Files.C102_uppercase_refuted, Files.C102_converted_frame, Files.C102_accepts_frame, Files.C102_frame_checksum_partial, Files.C102_frame_checksum_refuted, Files.C102_times_partial, Files.C102_times_refuted, Files.C102_keywords, Files.C102_called_partial, Files.C102_called_refuted, Python.C103_calls, Python.C103_objects, Python.C103_scenarios_partial, Python.C103_order_partial, Python.C103_run, Python.C103_function, Python.C103_function_partial, Python.C103_told, Python.Cases.C103_shared_refuted, V1Model.C104_kept, V1Model.C104_days, V1Model.C104_frequency, V1Model.C104_run, V1Model.C104_parts, V1Model.C104_reported, V1Model.C104_converts_partial, V1Model.Cases.C104_zero_days_refuted, Cli.C105_directory, Cli.C105_file, Cli.C105_intact, Cli.C105_order_partial, Cli.Cases.C105_order_refuted, Reorder.C106_builds, Reorder.C106_step, Reorder.C106_flows, Reorder.C106_best, Settings.C107_python, Settings.C107_python_effect, Settings.C107_cli, Settings.C107_multi_partial, Settings.Cases.C107_opencl_refuted, Reorder.C108_run, Reorder.C108_possible, Reorder.C108_setup, Statics.C109_possible, Statics.C109_cheaper, Statics.C109_scale, Statics.C109_demand, State.C11_feasible_step, State.C11_feasible_completes, State.C11_feasible_run, Insert.C110_builds, Insert.C110_step, Insert.C110_link, Insert.C110_flows, Insert.C110_best, State.C12_feasible_step, State.C12_feasible_completes, State.C12_inactive, State.C13_rolling_window_partial, State.C13_reset_to_max_refuted, State.C13_long_steps_refuted, State.C13_unequal_steps_refuted, State.C14_months_reset_iff, State.C14_day_of_year_reset_iff, State.C14_never_reset_iff, State.C14_day_of_year_once_per_year, State.C14_months_reset_on_first_of_month, State.C14_step_volume, State.C15_active_iff_cyclic, Solver.C16_columns, Solver.C16_shared_column_equal_flow, Solver.C17_mass_balance, Solver.C17_representable, Solver.C18_intersection, Solver.C18_order, Solver.C18_no_memory, Solver.C19_accumulate, Solver.C19_sparse, Solver.C19_row_ids, Solver.C20_objective, Solver.C20_optimal, Solver.C21_max_active_partial, Solver.C21_min_active_partial, Solver.C21_bounds_partial, Solver.C21_together_partial, Solver.C21_flow_cut, Solver.C21_varying_refuted, Solver.C21_min_active_refuted, Solver.C22_proportion_accepted_iff, Solver.C22_proportion_split, Solver.C22_ratio_accepted_iff, Solver.C22_ratio_split, Solver.C22_zero_proportion_accepted_refuted, Solver.C22_zero_first_ratio_refuted, Solver.C22_negative_ratio_accepted_refuted, Solver.C22_invalid_ignored_refuted, Solver.C22_zero_ratio_panics_refuted, Solver.C23_constant_pairs_agree, Solver.C23_pairs_agree, Solver.C23_varying_rhs_ignored_refuted, Solver.C23_storage_sign_refuted, Solver.C23_shared_column_refuted, Solver.C23_merged_rows_refuted, State.C24_fills_in_order, State.C24_total_preserved, State.C24_proportional, Temporal.C25_delay_general, Temporal.C25_delay_simple, Temporal.C25_delay_memory_bounded, Temporal.C26_rolling, ArrayParam.C27_array2_value, ArrayParam.C27_array2_column_exists, Temporal.C28_asymmetric_hysteresis, Temporal.C29_threshold_ratchet, Temporal.C29_threshold_plain, Temporal.C29_predicate_meaning, Temporal.C29_multi_position, Temporal.C29_multi_ratchet, Temporal.C29_multi_ratchet_monotone, Temporal.C29_multi_plain, Curves.C30_relation, Curves.C30_first_specified, Curves.C30_first_steady, Curves.C30_run, Curves.C30_constant, Curves.C31_exact, Curves.C31_between, Curves.C31_outside, Curves.C31_total, Curves.C31_monotone, Curves.C31_continuous_partial, Curves.C31_insufficient, Curves.C31_rejected_iff, Curves.C31_lazy_refuted, Curves.C31_small_gap_refuted, Curves.C32_index_iff, Curves.C32_index_monotone, Curves.C32_index_count, Curves.C32_value_partial, Curves.C32_value_above, Curves.C32_wrong_count_refuted, Curves.C33_interpolated_partial, Curves.C33_on_curve_partial, Curves.C33_between_partial, Curves.C33_piecewise_partial, Curves.C33_short_refuted, Curves.C33_curve_at_one_refuted, Curves.C33_piecewise_short_refuted, Curves.C34_apportion, Curves.C34_apportion_nonneg, Curves.C34_volumes, Curves.C34_volume_range, Profiles.C35_plain, Profiles.C35_first, Profiles.C35_last_partial, Profiles.C35_last_overshoot_refuted, Profiles.C36_weekly, Profiles.C36_year_end_jump, Profiles.C37_even_partial, Profiles.C37_early_partial, Profiles.C37_leap_day_partial, Profiles.C37_reset, Profiles.C37_range, Profiles.C37_double_drop_refuted, Profiles.C37_no_reset_refuted, Params.C38_succeeds_iff, Params.C38_success_graph, Params.C38_graph_succeeds, Params.C38_duplicate_real, Params.C38_duplicate_reported, Params.C38_circular_real, Params.C38_missing_real, Params.C38_failure_real, Params.C38_once, Params.C38_order, Params.C38_definition_order, Variables.C39_read_back, Variables.C39_profile_effective, Variables.C39_profile_partial, Variables.C39_failed_no_change, Variables.C39_success_accepted, Variables.C39_others, Variables.C39_not_taken, Variables.C39_all_is_each, Variables.C39_order, Variables.C39_unit_partial, Variables.C39_read_back_refuted, Variables.C39_constant_never, Variables.C39_effect_refuted, Variables.C39_offset_refuted, Params.C40_resolves_iff, Params.C40_offers_sound, Params.C40_never_uncomputed, Params.C40_requested_partial, Params.C40_every_step, Params.C40_requested_false, Agg.C41_split, Agg.C41_unique, Agg.C41_days_partial, Agg.C42_records_partial, Agg.C42_tiling, Agg.C42_no_panic, Agg.C42_panic_refuted, Agg.C42_last_duration_refuted, Agg.C42_sum_refuted, Agg.C42_days_partial, Agg.C42_days_refuted, Agg.C42_no_frequency, Agg.C43_nested_partial, Agg.C43_lost_year_refuted, Agg.C43_lost_month_refuted, Agg.C43_single_step_refuted, Agg.C44_overall, Agg.C44_order, Agg.C44_single, Agg.C44_functions, Agg.C44_single_refuted, Agg.C44_mixed_refuted, Agg.C44_empty_refuted, Run.C45_terminates, Run.C45_run, Run.C45_log, Run.C46_others, Run.C46_parallel_ends, Run.C46_multi, Run.C47_failed_partial, Multi.C48_accepts, Multi.C48_delivered, Multi.C48_run, Multi.C48_initial_precedence, Topology.C49_build_iff, Topology.C49_topology, Topology.C49_edges_of_nodes, Agg.C50_values, Agg.C50_order, Agg.C50_mean_between, Agg.C50_periods, Agg.C50_weighted_between, Agg.C50_equal_durations, Agg.C50_period_order, Agg.C50_product_overflow_refuted, Hydropower.C51_round_trip, Hydropower.C51_power, Hydropower.C51_limits, Hydropower.C51_target_met, Hydropower.C51_phases, Hydropower.C51_limits_refuted, Time.C52_duration_string, Time.C52_whole_days, State.C53_completed_partial, State.C53_ipm_virtual_storage_refuted, State.C53_solvers_differ_refuted, Scenario.C54_combination_domain, Scenario.C54_accepted, Scenario.C55_label_unique_partial, Solver.C56_create, Solver.C56_feasible, Solver.C56_represented, Solver.C56_defined, Profiles.C57_through_points, Profiles.C57_dates, Profiles.C57_day_bounds, Profiles.C58_daily_leap, Profiles.C58_daily_common, Profiles.C58_diurnal, Simulation.C60_run, Simulation.C60_setup, Simulation.C60_least_cost, Simulation.C60_rolling, Simulation.C60_rolling_limit, Simulation.C60_narrowing_refuted, Simulation.C60_start_refuted, Simulation.C60_longer_refuted, Simulation.C61_balance, Simulation.C62_completes, Variables.C63_apply, Variables.C63_panics_iff, Variables.C63_range, Variables.C63_onto, Variables.C63_onto_refuted, Variables.C63_monotone, Variables.C63_variables, Schema.C64_validate_iff, Schema.C64_validate_error, Schema.C64_validate_total, Schema.C65_through, Schema.C65_lossy, Schema.C65_source, Schema.C65_sink, Schema.C65_storage, Schema.C65_reservoir, Schema.C65_pieces, Schema.C65_routed, Schema.C66_inflow, Schema.C66_outflow, Schema.C66_abstraction, Schema.C66_compensation, Schema.C66_edge, Schema.C66_river_outflow_refuted, Schema.C66_river_outflow_case, Schema.C66_rainfall_refuted, Schema.C66_rainfall_case, Schema.C66_evaporation_refuted, Schema.C68_input, Schema.C68_output, Schema.C68_catchment, Schema.C68_link, Schema.C68_net, Schema.C68_abstraction, Schema.C68_pieceLink, Schema.C68_turbine, Schema.C68_soft_max_refuted, Schema.C68_max_flow_refuted, Schema.C68_gauge_refuted, Schema.C69_component, Schema.C69_aggregated, Schema.C70_use, Schema.C70_factors_partial, Schema.C70_factors_refuted, Schema.C70_cost_refuted, Schema.C70_parameters_refuted, Schema.C71_sizes, Schema.C71_least, Schema.C71_initial, Schema.C71_range, Schema.C71_volume, Schema.C72_outflow, Schema.C72_inflow, Schema.C72_outputs_refuted, Schema.C72_volume, Agg.C73_dates, Agg.C73_memory, Agg.C73_frame, Agg.C73_wide, Agg.C73_long, Agg.C73_period, Agg.C73_places, Agg.C73_hundredths, Agg.C73_metric_set_refuted, Agg.C73_empty_refuted, Agg.C73_wide_values_refuted, Solver.C74_solved, Solver.C74_no_bargain, Solver.C74_serve, Solver.C74_bottleneck, Solver.C74_no_loss, Solver.C74_reroute, Solver.C74_merit_order, Solver.C74_merit_order_room, Simulation.C74_run, Schema.C75_piecewise_link, Schema.C75_piecewise_fill, Schema.C75_gauge, Schema.C75_soft_min, Schema.C75_soft_max, Schema.C75_soft_both, Schema.C75_soft_both_order, Schema.C75_works, Schema.C75_abstraction, Params.C76_form, Params.C76_refused, Params.C76_run, Params.C76_fails, Params.C76_unique, Params.C76_builds_iff, Params.C76_order, Params.C76_extra, IpmLp.C77_create, IpmLp.C77_matrix, IpmLp.C77_update, IpmLp.C77_program, IpmLp.C77_represented, IpmLp.C77_objective, IpmLp.C77_optimal, IpmLp.C77_allowed, IpmLp.C77_features, IpmLp.C77_minimum_refuted, Ipm.C78_setup, Ipm.C78_factor, Ipm.C78_pivots, Ipm.C78_solves, Ipm.C78_unique, Ipm.C79_inside, Ipm.C79_step, Ipm.C79_finished, Ipm.C79_shrinks, Ipm.C80_returned, Ipm.C80_certificate, Ipm.C81_group, Ipm.C81_padding, Ipm.C81_leftovers, IpmLp.C82_setup, IpmLp.C82_independent, IpmLp.C82_pivots, IpmLp.C82_ring_refuted, Coupled.C83_run, Coupled.C83_fails, Coupled.C83_proportion, Coupled.C83_carried, Coupled.C83_limits, Coupled.C83_deficit, Coupled.C83_proportion_refuted, Tables.C84_loads_partial, Tables.C84_repeated_partial, Tables.C84_scalar_partial, Tables.C84_refused_partial, Tables.C84_index_partial, Tables.C84_array_loads, Tables.C84_array_row, Tables.C84_array_col, Tables.C84_labels_refuted, Tables.C84_no_row_refuted, Tables.C84_index_refuted, Timeseries.C85_loads, Timeseries.C85_rows, Timeseries.C85_same, Timeseries.C85_finer, Timeseries.C85_coarser_partial, Timeseries.C85_even, Timeseries.C85_columns, Timeseries.C85_collection, Timeseries.C85_references_partial, Timeseries.C85_step, Timeseries.C85_uneven_refuted, Timeseries.C85_gaps_refuted, Timeseries.C85_monthly_refuted, Timeseries.C85_names_refuted, Solver.C86_create, Solver.C86_sound, Solver.C86_represented, Solver.C86_defined, Solver.C86_optimal, Solver.C86_order, Solver.C86_plain, Kinds.C87_run, Kinds.C87_fails, Kinds.C87_unique, Kinds.C87_offset, Kinds.C87_vector, Kinds.C87_delay_zero, Kinds.C87_delays_add, Kinds.C87_between, Coupled.C88_run, Coupled.C88_fails, Coupled.C88_unique, Coupled.C88_limits, Coupled.C88_return_flow, Coupled.C88_deficit, Coupled.C88_restriction, Coupled.C88_curve, V1.C89_stops, V1.C89_nodes, V1.C89_edges, V1.C89_parameters, V1.C89_errors, V1.C89_one_stops_all_refuted, V1.C90_means_partial, V1.C90_virtual_frame_refuted, V1.C90_index_frame_refuted, V1.C90_virtual_storage_refuted, V1.C90_same_series_refuted, V1.C91_timeseries, V1.C91_unique_partial, V1.C91_node_and_parameter_refuted, V1.C91_curve_refuted, V1.C91_unnamed_refuted, Scenario.C92_members_partial, Scenario.C92_accepted, Scenario.C92_combinations, Schema.C92_split_partial, Schema.C92_splits_refuted, Schema.C93_slot, Schema.C93_share, Schema.C93_several_refuted, Schema.C93_two_case, Backends.C94_held, Backends.C94_allocation, Backends.C94_microlp, Backends.C94_clamp_refuted, Backends.C94_cbc_refuted, Backends.C95_clp, Backends.C95_highs, Backends.C95_microlp, Backends.C95_cbc_partial, Backends.C95_best, Backends.C95_microlp_best, Backends.C95_cbc_refuted, Load.C96_run_partial, Load.Cases.C97_deficit_captured, Load.Cases.C97_series_captured, Load.Cases.C97_column_captured, Load.C97_loads, EndToEnd.C97_index_of_node, Load.Cases.C97_deficit_series, Load.Cases.C97_local_refuted, Load.Cases.C97_multi_refuted, Load.Cases.C97_threshold_refuted, Load.Cases.C97_virtual_refuted, Load.Cases.C97_outputs_refuted, Hdf.C98_file, Hdf.C98_accepts, Hdf.C98_plain, Hdf.C98_links, Hdf.C98_columns_partial, Hdf.Cases.C98_aggregation_refuted, Hdf.Cases.C98_names_refuted, Hdf.Cases.C98_subset_refuted, EndToEnd.C99_run_partial, EndToEnd.C99_input, EndToEnd.C99_output, EndToEnd.C99_link, EndToEnd.C99_catchment, EndToEnd.C99_inflow, EndToEnd.C99_outflow, EndToEnd.C99_edge, EndToEnd.C99_deficit, EndToEnd.C99_storage, EndToEnd.C99_bounds, EndToEnd.C99_capacity, EndToEnd.C99_delay, EndToEnd.C99_demand, EndToEnd.C99_licence, EndToEnd.C99_budget, EndToEnd.C99_group, EndToEnd.C99_group_outflow, EndToEnd.C99_group_inflow, EndToEnd.C99_group_outputs_refuted, EndToEnd.C99_stores, EndToEnd.C99_pieces, EndToEnd.C99_made, EndToEnd.C99_series, EndToEnd.C99_series_scenario, EndToEnd.C99_table, EndToEnd.C99_profile, EndToEnd.C99_scenario, EndToEnd.C99_choice.
<!-- /axioms -->
