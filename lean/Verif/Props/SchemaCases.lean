import Verif.Props.SchemaMetrics
import Verif.Lemmas.SchemaCheck

/-! # Cases for C64 to C67 -/

namespace Verif.Schema

open Verif.Topology (Name EdgeDecl)
open Verif.Solver (Metric)

/-- Numbers of parameters. -/
def caseP : ParamNo := fun nm p k =>
  if p = "delay" then (if nm = "delay" then 0 else 1)
  else if p = "rainfall" then 2
  else if p = "store-00-max-volume" then 3
  else if p = "store-01-max-volume" then 4
  else if k = some "inflow_factor" then 5
  else if k = some "rhs" then 6
  else 7

/-- A catchment of 10 feeds, one after the other, a link, a gauge, a loss link, a treatment works, a piecewise link, a turbine, an
abstraction, a river split and an output. -/
def lineNet : Net :=
  { nodes := [⟨"cat", .catchment ⟨none, some (.const 10)⟩, []⟩,
      ⟨"link", .link ⟨some (.const 12), none, none, some ⟨some (.const (-5)), some (.const 4)⟩, none⟩, []⟩,
      ⟨"gauge", .riverGauge ⟨some (.const 3), some (.const (-9)), none⟩, []⟩,
      ⟨"leaky", .lossLink ⟨some (.gross (.const (1/5))), none, some (.const 20), none⟩, []⟩,
      ⟨"works", .works ⟨some (.net (.const (1/4))), some (.const 2), some (.const (-1)), none, none, none⟩, ["p"]⟩,
      ⟨"steps", .pieceLink ⟨[⟨some (.const 4), none, some (.const 1)⟩, ⟨none, none, some (.const 5)⟩]⟩, []⟩,
      ⟨"turbine", .turbine ⟨none, none, none, none⟩, []⟩,
      ⟨"abs", .abstraction ⟨some (.const 1), some (.const (-3)), none, some (.const 2), none⟩, []⟩,
      ⟨"split", .riverSplit ⟨none, none, [⟨.const (1/2), some "side"⟩]⟩, []⟩,
      ⟨"town", .output ⟨none, none, some (.const (-2))⟩, []⟩,
      ⟨"sea", .output ⟨none, none, none⟩, []⟩]
    virtualNodes := []
    edges := [⟨"cat", "link", none, none⟩, ⟨"link", "gauge", none, none⟩, ⟨"gauge", "leaky", none, none⟩, ⟨"leaky", "works", none, none⟩,
      ⟨"works", "steps", none, none⟩, ⟨"steps", "turbine", none, none⟩, ⟨"turbine", "abs", none, none⟩,
      ⟨"abs", "town", some .abstraction, none⟩, ⟨"abs", "split", some .river, none⟩, ⟨"split", "sea", none, none⟩,
      ⟨"split", "town", some (.user "side"), none⟩] }

/-- Flows along the edges between core nodes. -/
def lineFlows : Nat → ℚ := flows (fragOf caseP lineNet)
  [(⟨("cat", none), ("link", none)⟩, 6), (⟨("cat", none), ("link", some "soft_min")⟩, 4),
   (⟨("link", none), ("gauge", some "bypass")⟩, 6), (⟨("link", some "soft_min"), ("gauge", some "mrf")⟩, 3),
   (⟨("link", some "soft_min"), ("gauge", some "bypass")⟩, 1),
   (⟨("gauge", some "mrf"), ("leaky", some "net")⟩, 3), (⟨("gauge", some "bypass"), ("leaky", some "net")⟩, 5),
   (⟨("gauge", some "bypass"), ("leaky", some "loss")⟩, 2),
   (⟨("leaky", some "net"), ("works", some "net")⟩, 32/5), (⟨("leaky", some "net"), ("works", some "loss")⟩, 8/5),
   (⟨("works", some "net"), ("works", some "net_soft_min_flow")⟩, 2), (⟨("works", some "net"), ("works", some "net_above_soft_min_flow")⟩, 22/5),
   (⟨("works", some "net_soft_min_flow"), ("steps", some "step-00")⟩, 2),
   (⟨("works", some "net_above_soft_min_flow"), ("steps", some "step-00")⟩, 2),
   (⟨("works", some "net_above_soft_min_flow"), ("steps", some "step-01")⟩, 12/5),
   (⟨("steps", some "step-00"), ("turbine", none)⟩, 4), (⟨("steps", some "step-01"), ("turbine", none)⟩, 12/5),
   (⟨("turbine", none), ("abs", some "bypass")⟩, 17/5), (⟨("turbine", none), ("abs", some "abstraction")⟩, 2),
   (⟨("turbine", none), ("abs", some "mrf")⟩, 1), (⟨("abs", some "abstraction"), ("town", none)⟩, 2),
   (⟨("abs", some "mrf"), ("split", some "bypass")⟩, 1), (⟨("abs", some "bypass"), ("split", some "bypass")⟩, 6/5),
   (⟨("abs", some "bypass"), ("split", some "split-0")⟩, 11/5),
   (⟨("split", some "bypass"), ("sea", none)⟩, 11/5), (⟨("split", some "split-0"), ("town", none)⟩, 11/5)]

/-- A step without parameters, storages or virtual storages. -/
def plainSt : Solver.StepState := ⟨fun _ => none, fun _ => none, fun _ => false, fun _ => none, 1⟩

theorem lineNet_built : Built caseP lineNet (fragOf caseP lineNet) (coreOf caseP lineNet) := builtCheck_ok (by decide +kernel)

theorem lineNet_allowed : Solver.Allowed (coreOf caseP lineNet).model plainSt lineFlows := allowedCheck_ok (by decide +kernel)

/-- The `i`-th node. -/
def Net.at (N : Net) (i : Nat) : SNode := N.nodes.getD i ⟨"", .placeholder, []⟩

/-- What nodes receive and send: 10 up to the loss link, which sends 8; the works send 6.4. -/
example : (received lineNet (fragOf caseP lineNet) lineFlows "leaky", sent lineNet (fragOf caseP lineNet) lineFlows "leaky",
    received lineNet (fragOf caseP lineNet) lineFlows "works", sent lineNet (fragOf caseP lineNet) lineFlows "works") = (10, 8, 8, 32/5) := by
  decide +kernel

/-- The names are accepted; with a second node "cat" they are not, and the error names it. -/
example : lineNet.validate = .ok () ∧ ({ lineNet with virtualNodes := [⟨"cat", .placeholder, []⟩] } : Net).validate =
    .error (.duplicateNames [("cat", 1, 1)]) := by
  decide +kernel

example := C64_validate_iff lineNet

example := C65_through lineNet_built lineNet_allowed (n := lineNet.at 1) (by decide +kernel) (by decide +kernel)
example := C65_through lineNet_built lineNet_allowed (n := lineNet.at 2) (by decide +kernel) (by decide +kernel)
example := C65_through lineNet_built lineNet_allowed (n := lineNet.at 5) (by decide +kernel) (by decide +kernel)
example := C65_through lineNet_built lineNet_allowed (n := lineNet.at 6) (by decide +kernel) (by decide +kernel)
example := C65_through lineNet_built lineNet_allowed (n := lineNet.at 7) (by decide +kernel) (by decide +kernel)
example := C65_through lineNet_built lineNet_allowed (n := lineNet.at 8) (by decide +kernel) (by decide +kernel)
example := C65_lossy lineNet_built lineNet_allowed (n := lineNet.at 3) (by decide +kernel) (by decide +kernel)
example := C65_lossy lineNet_built lineNet_allowed (n := lineNet.at 4) (by decide +kernel) (by decide +kernel)
example := C65_source lineNet_built (f := lineFlows) (n := lineNet.at 0) (by decide +kernel) (.inr ⟨_, rfl⟩)
example := C65_sink lineNet_built (f := lineFlows) (n := lineNet.at 9) (by decide +kernel) rfl
example := C66_inflow lineNet_built lineNet_allowed (n := lineNet.at 4) (by decide +kernel) rfl
example := C66_outflow lineNet_built lineNet_allowed (n := lineNet.at 4) (by decide +kernel) rfl (by intro b hb; cases hb) (by intro b hb; cases hb)
example := C66_abstraction lineNet_built lineNet_allowed (n := lineNet.at 7) (by decide +kernel) rfl
example := C66_edge lineNet_built (f := lineFlows) (e := ⟨"abs", "town", some .abstraction, none⟩) (by decide +kernel)

/-- A reservoir with compensation, spill, rainfall and leakage, a piecewise storage, a delay, and rivers with a delay and a loss
and with the Muskingum method. -/
def storeNet : Net :=
  { nodes := [⟨"cat", .catchment ⟨none, some (.const 10)⟩, []⟩,
      ⟨"res", .reservoir ⟨⟨some (.const 100), some (.const 5), none, .proportional (1/2)⟩, some (.const 3), some .link, none,
        some ⟨.polynomial [1], false⟩, some ⟨.const 1, none⟩, none, some ⟨.const 1, none⟩⟩, []⟩,
      ⟨"delay", .delay ⟨1, 4⟩, []⟩,
      ⟨"slow", .river ⟨some (.gross (.const (1/2))), some (.delay 2 0)⟩, []⟩,
      ⟨"musk", .river ⟨none, some (.muskingum (.const 2) (.const (1/4)))⟩, []⟩,
      ⟨"pieces", .pieceStore ⟨.const 60, none, none, [⟨.const (1/2), some (.const (-1))⟩], .absolute 20⟩, []⟩,
      ⟨"tank", .storage ⟨some (.const 30), none, none, .absolute 10⟩, []⟩,
      ⟨"sea", .output ⟨none, none, none⟩, []⟩]
    virtualNodes := []
    edges := [⟨"cat", "res", none, none⟩, ⟨"res", "delay", some .compensation, none⟩, ⟨"res", "pieces", none, none⟩,
      ⟨"res", "sea", some .spill, none⟩,
      ⟨"delay", "slow", none, none⟩, ⟨"slow", "musk", none, none⟩, ⟨"musk", "tank", none, none⟩, ⟨"tank", "sea", none, none⟩,
      ⟨"pieces", "sea", none, none⟩] }

def storeFlows : Nat → ℚ := flows (fragOf caseP storeNet)
  [(⟨("cat", none), ("res", none)⟩, 10), (⟨("res", some "rainfall"), ("res", none)⟩, 2), (⟨("res", none), ("res", some "leakage")⟩, 1),
   (⟨("res", none), ("res", some "compensation")⟩, 3), (⟨("res", some "compensation"), ("delay", some "inflow")⟩, 2),
   (⟨("res", some "compensation"), ("res", some "spill")⟩, 1), (⟨("res", some "spill"), ("sea", none)⟩, 1),
   (⟨("res", none), ("pieces", some "store-00")⟩, 6), (⟨("pieces", some "store-00"), ("pieces", some "store-01")⟩, 5),
   (⟨("pieces", some "store-00"), ("sea", none)⟩, 4),
   (⟨("delay", some "outflow"), ("slow", some "inflow")⟩, 4),
   (⟨("slow", some "outflow"), ("slow", some "net")⟩, 3), (⟨("slow", some "outflow"), ("slow", some "loss")⟩, 3),
   (⟨("slow", some "net"), ("musk", some "inflow")⟩, 3), (⟨("musk", some "outflow"), ("tank", none)⟩, 2),
   (⟨("tank", none), ("sea", none)⟩, 1)]

/-- The delays release 4 and 6, the rainfall is 2, the stores hold at most 30, and the routing equation is
`out - 1/3 inflow = 1`. -/
def storeSt : Solver.StepState :=
  ⟨fun k => [some 4, some 6, some 2, some 30, some 30, some (-1/3), some 1][k]?.join, fun _ => some 20, fun _ => false, fun _ => none, 1⟩

theorem storeNet_built : Built caseP storeNet (fragOf caseP storeNet) (coreOf caseP storeNet) := builtCheck_ok (by decide +kernel)

theorem storeNet_allowed : Solver.Allowed (coreOf caseP storeNet).model storeSt storeFlows := allowedCheck_ok (by decide +kernel)

example := C65_reservoir storeNet_built storeNet_allowed (n := storeNet.at 1) (by decide +kernel) rfl
example := C65_routed storeNet_built storeNet_allowed (n := storeNet.at 2) (by decide +kernel) (by decide +kernel)
example := C65_routed storeNet_built storeNet_allowed (n := storeNet.at 3) (by decide +kernel) (by decide +kernel)
example := C65_routed storeNet_built storeNet_allowed (n := storeNet.at 4) (by decide +kernel) (by decide +kernel)
example := C65_pieces storeNet_built storeNet_allowed (n := storeNet.at 5) (by decide +kernel) rfl
example := C65_storage storeNet_built storeNet_allowed (n := storeNet.at 6) (by decide +kernel) rfl
example := C66_inflow storeNet_built storeNet_allowed (n := storeNet.at 3) (by decide +kernel) rfl
example := C66_compensation storeNet_built storeNet_allowed (n := storeNet.at 1) (by decide +kernel) rfl rfl

/-- **C66, refuted (outflow of a river with routing and a loss).** The river "slow" sends 3 and reports an outflow of 6. -/
theorem C66_river_outflow_case : sent storeNet (fragOf caseP storeNet) storeFlows "slow" = 3 ∧
    Reports (fragOf caseP storeNet) (coreOf caseP storeNet) storeFlows ((storeNet.at 3).metric (some .outflow)) 6 :=
  ⟨by decide +kernel, ⟨.multiNodeOutFlow [("slow", some "outflow")], by decide +kernel, by decide +kernel⟩⟩

/-- **C66, refuted (rainfall).** The rainfall on "res" is 2, but it reports 0. -/
theorem C66_rainfall_case : nameFlow (fragOf caseP storeNet) storeFlows ("res", some "rainfall") = 2 ∧
    Reports (fragOf caseP storeNet) (coreOf caseP storeNet) storeFlows ((storeNet.at 1).metric (some .rainfall)) 0 :=
  ⟨by decide +kernel, C66_rainfall_refuted storeNet_built (by decide +kernel) rfl⟩

example := C66_evaporation_refuted storeNet_built (f := storeFlows) (n := storeNet.at 1) (by decide +kernel) rfl rfl
example := C66_river_outflow_refuted storeNet_built storeNet_allowed (n := storeNet.at 3) (by decide +kernel) rfl rfl rfl

end Verif.Schema
