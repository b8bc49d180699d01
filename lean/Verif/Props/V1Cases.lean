import Verif.Props.V1

/-! # C89-C91: examples, and old networks for which the claims fail -/

namespace Verif.V1

/-- A network: a reservoir with a licence, a demand with parameters inside parameters, a river split, a control curve, a
profile from a table, a data frame, and some components that cannot be converted. -/
def sample : Network where
  nodes := [
    storageNode "reservoir" true none (some (.inline (constant (.given none true) (some 100) none))) none true,
    flowNode "Output" "demand" true
      (some (.constant (-10)))
      (some (.inline (aggregated (.given none true)
        [.reference "profile", .inline (constant (.given (some "base") true) (some 5) none),
          .inline (.dataFrame (.given none true) (some "demand.csv") none (some "total") none)]))) none,
    flowNode "Input" "inflow" true none (some (.reference "flows")) none,
    virtualStorage "licence" true none (some (.constant 1000)) none true,
    .riverSplit "split" true (.opt "mrf" (some (.reference "flows")) .done) [.constant 1, .constant 3, .constant 4]
      ["river", "canal", "leat"],
    flowNode "Link" "broken" true (some (.inline (.refused (some "odd") .customType))) none none,
    .custom "special" ]
  edges := [⟨"inflow", "reservoir", none, none⟩, ⟨"reservoir", "demand", some "spill", none⟩,
    ⟨"reservoir", "split", some "leak", none⟩]
  parameters := [
    profile "MonthlyProfile" (.given (some "profile") true) none false (some true),
    .dataFrame (.given (some "flows") true) (some "flows.csv") none none (some "climate"),
    controlCurve (.given (some "curve") true) "licence" (some [.constant 1, .inline (plain "DiscountFactor" (.given none true))])
      none (some [1, 2, 3]) none,
    constant (.given (some "bad") false) (some 1) none ]
  tables := ["lookup"]

/-- Names that do not end in a digit are not made up. -/
theorem sample_names (l : List String) (h : l.all (fun n => !((n.toList.getLast?.map Char.isDigit).getD false)) = true) :
    ∀ n ∈ l, ∀ parent k, n ≠ madeUp parent k := by
  intro n hn
  rw [List.all_eq_true] at h
  exact notMadeUp n (by simpa using h n hn)

/-- The conditions of C91 hold for the example. -/
theorem sample_distinct : sample.Distinct where
  regularNodes := by decide +kernel
  regularParams := by decide +kernel
  named := by decide +kernel
  bases := by decide +kernel
  written := by decide +kernel
  notMadeUp := sample_names _ (by decide +kernel)

/-- The conditions of C90 hold for the example. -/
theorem sample_plain : sample.Plain where
  nodes := by decide +kernel
  params := by decide +kernel

/-- What the example becomes. -/
theorem sample_convert : convert sample = some {
    nodes := [
      ⟨"Storage", "reservoir", [⟨"max_volume", false, .parameter "reservoir-p0"⟩]⟩,
      ⟨"Output", "demand", [⟨"cost", false, .literal (-10)⟩, ⟨"max_flow", false, .parameter "demand-p0"⟩]⟩,
      ⟨"Input", "inflow", [⟨"max_flow", false, .timeseries ⟨"flows", some (true, "climate")⟩⟩]⟩,
      ⟨"RiverSplitWithGauge", "split", [⟨"mrf", false, .timeseries ⟨"flows", some (true, "climate")⟩⟩,
        ⟨"canal", false, .literal (3 / 8)⟩, ⟨"leat", false, .literal (4 / 8)⟩]⟩]
    virtualNodes := [⟨"VirtualStorage", "licence", [⟨"max_volume", false, .literal 1000⟩]⟩]
    edges := [⟨"inflow", "reservoir", none, none⟩, ⟨"reservoir", "demand", some .spill, none⟩]
    parameters := [
      ⟨"MonthlyProfile", "profile", []⟩,
      ⟨"ControlCurve", "curve", [⟨"control_curves", false, .literal 1⟩, ⟨"control_curves", false, .parameter "curve-p0"⟩,
        ⟨"values", false, .literal 1⟩, ⟨"values", false, .literal 2⟩, ⟨"values", false, .literal 3⟩,
        ⟨"storage_node", false, .virtualNode "licence"⟩]⟩,
      ⟨"Constant", "reservoir-p0", []⟩,
      ⟨"Constant", "base", []⟩,
      ⟨"Aggregated", "demand-p0", [⟨"parameters", false, .parameter "profile"⟩, ⟨"parameters", false, .parameter "base"⟩,
        ⟨"parameters", false, .timeseries ⟨"demand-p1", some (false, "total")⟩⟩]⟩,
      ⟨"DiscountFactor", "curve-p0", []⟩]
    timeseries := [⟨"demand-p1", "demand.csv"⟩, ⟨"flows", "flows.csv"⟩]
    errors := [.component ⟨"broken", "cost", .customType⟩, .component ⟨"special", "", .customType⟩,
      .edge "reservoir" "split", .component ⟨"bad", "tags", .unexpectedType⟩, .table "lookup"] } := by
  decide +kernel

/-- C90 and C91 say something of the example. -/
example : ∃ r, convert sample = some r ∧ (r.parameters.map Component.name).Nodup ∧
    List.Forall₂ (Node.becomes (env sample r)) (sample.nodes.filter fun n => n.verdict == .fine && !n.isVirtual) r.nodes :=
  ⟨_, sample_convert, (C91_unique_partial _ _ sample_distinct sample_convert).1,
    (C90_means_partial _ _ sample_distinct sample_plain sample_convert).1⟩

/-! ## Where C89 fails: one parameter of a type that is not implemented ends the conversion of everything -/

/-- **C89**: one parameter of a type that is not implemented ends the conversion, and nothing is reported. -/
theorem C89_one_stops_all_refuted : ∃ v1 : Network, (∀ n ∈ v1.nodes, n.verdict = .fine) ∧ v1.parameters.length = 2 ∧
    (∃ p ∈ v1.parameters, p.verdict = .fine) ∧ convert v1 = none :=
  ⟨⟨[flowNode "Input" "inflow" true none none none], [],
    [profile "MonthlyProfile" (.given (some "profile") true) (some []) false none, .unimplemented], []⟩,
    by decide +kernel, rfl, by decide +kernel, by decide +kernel⟩

/-! ## Where C91 fails -/

/-- The network of `C91_node_and_parameter`. -/
def C91_node_and_parameter_network : Network :=
  ⟨[flowNode "Input" "river" true none (some (.inline (constant (.given none true) (some 1) none))) none], [],
    [aggregated (.given (some "river") true) [.inline (constant (.given none true) (some 2) none)]], []⟩

/-- **C91**: a node and a parameter with the same name, each with a parameter inside that has no name, give two
parameters the same name. -/
theorem C91_node_and_parameter_refuted : ∃ v1 r, convert v1 = some r ∧ (r.parameters.map Component.name) = ["river", "river-p0", "river-p0"] ∧
    v1.nodes.map Node.name = ["river"] ∧ v1.parameters.filterMap Param.name = ["river"] :=
  ⟨C91_node_and_parameter_network, (convert C91_node_and_parameter_network).get (by decide +kernel), (Option.some_get _).symm, by decide +kernel, by decide +kernel, by decide +kernel⟩

/-- The network of `C91_curve`. -/
def C91_curve_network : Network :=
  ⟨[], [], [controlCurve (.given (some "index") true) "reservoir"
    (some [.inline (constant (.given (some "level") true) (some 1) none)]) none none none], []⟩

/-- **C91**: a control curve without values is converted twice, and a named parameter inside it appears twice. -/
theorem C91_curve_refuted : ∃ v1 r, convert v1 = some r ∧ (r.parameters.map Component.name) = ["index", "level", "level"] ∧
    v1.parameters.flatMap Param.written = ["index", "level"] ∧ v1.nodes.length = 0 :=
  ⟨C91_curve_network, (convert C91_curve_network).get (by decide +kernel), (Option.some_get _).symm, by decide +kernel, by decide +kernel, rfl⟩

/-- The network of `C91_unnamed`. -/
def C91_unnamed_network : Network :=
  ⟨[flowNode "Input" "source" true none (some (.inline (constant .missing (some 1) none))) none,
    flowNode "Output" "sink" true none (some (.inline (constant .missing (some 2) none))) none], [], [], []⟩

/-- **C91**: parameters without metadata in two nodes get the same name. -/
theorem C91_unnamed_refuted : ∃ v1 r, convert v1 = some r ∧
    (r.parameters.map Component.name) = ["unnamed-0", "unnamed-0"] ∧ v1.nodes.map Node.name = ["source", "sink"] :=
  ⟨C91_unnamed_network, (convert C91_unnamed_network).get (by decide +kernel), (Option.some_get _).symm, by decide +kernel, by decide +kernel⟩

/-- Parameters without metadata in one node get different names. -/
example : ((convert ⟨[flowNode "Input" "source" true none (some (.inline (constant .missing (some 1) none)))
      (some (.inline (constant .missing (some 2) none)))], [], [], []⟩).map fun r => r.parameters.map Component.name) =
    some ["unnamed-0", "unnamed-1"] := by decide +kernel

/-! ## Where C90 fails -/

/-- The network of `C90_virtual_frame`. -/
def C90_virtual_frame_network : Network :=
  ⟨[virtualStorage "licence" true none (some (.reference "flows")) none true], [],
    [.dataFrame (.given (some "flows") true) (some "flows.csv") none none none], []⟩

/-- **C90**: a virtual node with an attribute that refers to a data frame keeps the reference to a parameter, although
there is no parameter of this name any more. -/
theorem C90_virtual_frame_refuted : ∃ v1 r, convert v1 = some r ∧ v1.Distinct ∧ r.errors = [] ∧
    r.virtualNodes = [⟨"VirtualStorage", "licence", [⟨"max_volume", false, .parameter "flows"⟩]⟩] ∧
    ∀ c ∈ r.parameters, c.name ≠ "flows" := by
  refine ⟨C90_virtual_frame_network, (convert C90_virtual_frame_network).get (by decide +kernel), (Option.some_get _).symm, ?_,
    by decide +kernel, by decide +kernel, by decide +kernel⟩
  exact ⟨by decide +kernel, by decide +kernel, by decide +kernel, by decide +kernel, by decide +kernel,
    sample_names _ (by decide +kernel)⟩

/-- The network of `C90_index_frame`. -/
def C90_index_frame_network : Network :=
  ⟨[], [], [aggregatedIndex (.given (some "sum") true) [.reference "flows"],
    .dataFrame (.given (some "flows") true) (some "flows.csv") none none none], []⟩

/-- **C90**: likewise for an index. -/
theorem C90_index_frame_refuted : ∃ v1 r, convert v1 = some r ∧ v1.Distinct ∧ r.errors = [] ∧
    r.parameters = [⟨"AggregatedIndex", "sum", [⟨"parameters", true, .parameter "flows"⟩]⟩] := by
  refine ⟨C90_index_frame_network, (convert C90_index_frame_network).get (by decide +kernel), (Option.some_get _).symm, ?_,
    by decide +kernel, by decide +kernel⟩
  exact ⟨by decide +kernel, by decide +kernel, by decide +kernel, by decide +kernel, by decide +kernel,
    sample_names _ (by decide +kernel)⟩

/-- The network of `C90_virtual_storage`. -/
def C90_virtual_storage_network : Network :=
  ⟨[virtualStorage "licence" true none (some (.constant 100)) none true], [],
    [storageThreshold (.given (some "low") true) "licence" (.constant 10) none], []⟩

/-- **C90**: a threshold on a virtual storage refers to an ordinary node of its name, which does not exist. -/
theorem C90_virtual_storage_refuted : ∃ v1 r, convert v1 = some r ∧ v1.Distinct ∧ r.errors = [] ∧
    r.parameters = [⟨"Threshold", "low", [⟨"storage_node", false, .node "licence"⟩, ⟨"threshold", false, .literal 10⟩]⟩] ∧
    r.nodes = [] ∧ r.virtualNodes.map Component.name = ["licence"] := by
  refine ⟨C90_virtual_storage_network, (convert C90_virtual_storage_network).get (by decide +kernel), (Option.some_get _).symm, ?_,
    by decide +kernel, by decide +kernel, by decide +kernel, by decide +kernel⟩
  exact ⟨by decide +kernel, by decide +kernel, by decide +kernel, by decide +kernel, by decide +kernel,
    sample_names _ (by decide +kernel)⟩

/-- The network of `C90_same_series`. -/
def C90_same_series_network : Network :=
  ⟨[flowNode "Input" "upper" true none
    (some (.inline (.dataFrame (.given (some "flows") true) (some "first.csv") none none none))) none,
    flowNode "Input" "lower" true none
    (some (.inline (.dataFrame (.given (some "flows") true) (some "second.csv") none none none))) none], [], [], []⟩

/-- **C90**: of two data frames with the same name, written in different attributes, the second refers to the data of
the first. -/
theorem C90_same_series_refuted : ∃ v1 r, convert v1 = some r ∧ r.errors = [] ∧ r.timeseries = [⟨"flows", "first.csv"⟩] ∧
    r.nodes = [⟨"Input", "upper", [⟨"max_flow", false, .timeseries ⟨"flows", none⟩⟩]⟩,
      ⟨"Input", "lower", [⟨"max_flow", false, .timeseries ⟨"flows", none⟩⟩]⟩] :=
  ⟨C90_same_series_network, (convert C90_same_series_network).get (by decide +kernel), (Option.some_get _).symm, by decide +kernel, by decide +kernel, by decide +kernel⟩

end Verif.V1
