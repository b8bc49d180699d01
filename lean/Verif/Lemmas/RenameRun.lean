import Verif.Lemmas.RenameBuild

/-! # Renaming and simulating networks -/

namespace Verif.Rename

open Verif.Topology (TNode Network)
open Verif.Solver Verif.Simulation

variable {ρ : String → String}

theorem at_rename (M : Network) (i : Nat) : (network ρ M).nodes[i]? = (M.nodes[i]?).map (tnode ρ) := by
  rw [network_eq]
  exact List.getElem?_map

theorem edges_rename (M : Network) : (network ρ M).edges = M.edges := rfl

/-- A model under new names. -/
def model (ρ : String → String) (M : Model) : Model := { M with net := network ρ M.net }

/-! ## Creating the program -/

theorem columnStep_rename (N : Network) (m : ColMap) (e : State.Edge) : columnStep (network ρ N) m e = columnStep N m e := by
  simp only [columnStep, at_rename]
  cases N.nodes[e.fromNode]? <;> rfl

theorem columnLoop_rename (N : Network) (es : List State.Edge) (m : ColMap) : columnLoop (network ρ N) es m = columnLoop N es m := by
  induction es generalizing m with
  | nil => rfl
  | cons e es ih =>
    simp only [columnLoop, columnStep_rename]
    cases columnStep N m e with
    | error x => rfl
    | ok m' => exact ih m'

theorem createColMap_rename (N : Network) : createColMap (network ρ N) = createColMap N := by
  simp only [createColMap, edges_rename, columnLoop_rename]

theorem massBalance_rename (m : ColMap) (ns : List TNode) (b : LpBuilder) :
    createMassBalance m (ns.map (tnode ρ)) b = createMassBalance m ns b := by
  induction ns generalizing b with
  | nil => rfl
  | cons n ns ih =>
    have h : massBalanceRow m (tnode ρ n) = massBalanceRow m n := rfl
    simp only [List.map_cons, createMassBalance, h, ih]

theorem addNode_rename (m : ColMap) (n : TNode) (k : ℚ) (r : Row) : addNode m (tnode ρ n) k r = addNode m n k r := rfl

theorem addNodes_rename (m : ColMap) (N : Network) (is : List (Nat × ℚ)) (r : Row) :
    addNodes m (network ρ N) is r = addNodes m N is r := by
  induction is generalizing r with
  | nil => rfl
  | cons p is ih =>
    obtain ⟨i, k⟩ := p
    simp only [addNodes, at_rename]
    cases N.nodes[i]? with
    | none => rfl
    | some n =>
      simp only [Option.map_some, addNode_rename]
      cases addNode m n k r with
      | none => rfl
      | some r => exact ih r

theorem binaryRows_rename (m : ColMap) (n : TNode) (bd : Option (ℚ × ℚ)) (cs : List Nat) (b : LpBuilder) (ids : List NodeRow) :
    binaryRows m (tnode ρ n) bd cs b ids = binaryRows m n bd cs b ids := by
  induction cs generalizing b ids with
  | nil => rfl
  | cons c cs ih =>
    simp only [binaryRows, addNode_rename, ih]
    rfl

theorem nodeRows_rename (m : ColMap) (data : Nat → NodeData) (bins : List (Nat × List Nat)) (ns : List TNode) (b : LpBuilder)
    (ids : List NodeRow) : createNodeRows m data bins (ns.map (tnode ρ)) b ids = createNodeRows m data bins ns b ids := by
  induction ns generalizing b ids with
  | nil => rfl
  | cons n ns ih =>
    have h : ∀ d, constBounds (tnode ρ n) d = constBounds n d := fun _ => rfl
    simp only [List.map_cons, createNodeRows, binaryRows_rename, addNode_rename, h, ih]
    rfl

theorem aggRows_rename (m : ColMap) (N : Network) (as : List AggNode) (b : LpBuilder) (ids : List Nat) :
    createAggRows m (network ρ N) as b ids = createAggRows m N as b ids := by
  induction as generalizing b ids with
  | nil => rfl
  | cons a as ih => simp only [createAggRows, addNodes_rename, ih]

theorem addFactored_rename (m : ColMap) (N : Network) (ns : List Nat) (f : Option Fin?) (r : Row) :
    addFactored m (network ρ N) ns f r = addFactored m N ns f r := by
  simp only [addFactored, addNodes_rename]

theorem factorRow_rename (m : ColMap) (N : Network) (p : CPair) : factorRow m (network ρ N) p = factorRow m N p := by
  simp only [factorRow, addFactored_rename]

theorem factorRows_rename (m : ColMap) (N : Network) (ps : List CPair) (b : LpBuilder) (ids : List (Option Nat)) :
    factorRows m (network ρ N) ps b ids = factorRows m N ps b ids := by
  induction ps generalizing b ids with
  | nil => rfl
  | cons p ps ih => simp only [factorRows, factorRow_rename, ih]

theorem createFactorRows_rename (m : ColMap) (N : Network) (as : List AggNode) (k : Nat) (b : LpBuilder)
    (ids : List (Nat × List (Option Nat))) :
    createFactorRows m (network ρ N) as k b ids = createFactorRows m N as k b ids := by
  induction as generalizing k b ids with
  | nil => rfl
  | cons a as ih => simp only [createFactorRows, factorRows_rename, ih]

theorem vsRows_rename (m : ColMap) (N : Network) (vs : List VStore) (b : LpBuilder) (ids : List Nat) :
    createVsRows m (network ρ N) vs b ids = createVsRows m N vs b ids := by
  induction vs generalizing b ids with
  | nil => rfl
  | cons v vs ih => simp only [createVsRows, addNodes_rename, ih]

theorem createRows_rename (M : Model) (m : ColMap) (b : LpBuilder) (bins : Bins) :
    createRows (model ρ M) m b bins = createRows M m b bins := by
  have h1 : createMassBalance m (model ρ M).net.nodes b = createMassBalance m M.net.nodes b := massBalance_rename m M.net.nodes b
  have h2 : ∀ b, createNodeRows m (model ρ M).data bins.ofNode (model ρ M).net.nodes b [] =
      createNodeRows m M.data bins.ofNode M.net.nodes b [] := fun b => nodeRows_rename m M.data bins.ofNode M.net.nodes b []
  simp only [createRows, h1, h2]
  simp only [model, aggRows_rename, createFactorRows_rename, vsRows_rename]

theorem create_rename (M : Model) (big negBig : ℚ) (sets : List (List Nat)) :
    create (model ρ M) big negBig sets = create M big negBig sets := by
  have h : createColMap (model ρ M).net = createColMap M.net := createColMap_rename M.net
  simp only [create, h, createRows_rename]

/-! ## Updating the program -/

theorem nodeCost_rename (M : Model) (σ : Nat → Option ℚ) (n : TNode) : nodeCost (model ρ M) σ (tnode ρ n) = nodeCost M σ n := rfl

theorem edgeCost_rename (M : Model) (σ : Nat → Option ℚ) (e : State.Edge) : edgeCost (model ρ M) σ e = edgeCost M σ e := by
  have ho : ∀ n, outgoingCost (model ρ M) σ (tnode ρ n) = outgoingCost M σ n := fun n => by
    simp only [outgoingCost, nodeCost_rename]; rfl
  have hi : ∀ n, incomingCost (model ρ M) σ (tnode ρ n) = incomingCost M σ n := fun n => by
    simp only [incomingCost, nodeCost_rename]; rfl
  have ha : ∀ i, (model ρ M).net.nodes[i]? = (M.net.nodes[i]?).map (tnode ρ) := at_rename M.net
  simp only [edgeCost, ha]
  cases M.net.nodes[e.fromNode]? <;> cases M.net.nodes[e.toNode]? <;> simp [ho, hi]

theorem objective_rename (M : Model) (σ : Nat → Option ℚ) (cols : List Nat) (es : List State.Edge) (lp : Lp) :
    objectiveLoop (model ρ M) σ cols es lp = objectiveLoop M σ cols es lp := by
  induction es generalizing lp with
  | nil => rfl
  | cons e es ih => simp only [objectiveLoop, edgeCost_rename, ih]

theorem nodeBounds_rename (M : Model) (st : StepState) (rs : List NodeRow) (lp : Lp) :
    nodeBoundsLoop (model ρ M) st rs lp = nodeBoundsLoop M st rs lp := by
  induction rs generalizing lp with
  | nil => rfl
  | cons r rs ih =>
    have ha : ∀ i, (model ρ M).net.nodes[i]? = (M.net.nodes[i]?).map (tnode ρ) := at_rename M.net
    simp only [nodeBoundsLoop, ha, ih]
    cases M.net.nodes[r.node]? <;> rfl

theorem pushNodes_rename (N : Network) (cols : List Nat) (row : Nat) (k : ℚ) (is : List Nat) (lp : Lp) :
    pushNodes (network ρ N) cols row k is lp = pushNodes N cols row k is lp := by
  induction is generalizing lp with
  | nil => rfl
  | cons i is ih =>
    simp only [pushNodes, at_rename, ih]
    cases N.nodes[i]? <;> rfl

theorem updatePairs_rename (N : Network) (cols : List Nat) (ps : List (Pair × Option Nat)) (lp : Lp) :
    updatePairs (network ρ N) cols ps lp = updatePairs N cols ps lp := by
  induction ps generalizing lp with
  | nil => rfl
  | cons p ps ih =>
    obtain ⟨p, _ | row⟩ := p
    · simp only [updatePairs, ih]
    · simp only [updatePairs, updatePair, pushNodes_rename, ih]

theorem factorLoop_rename (M : Model) (σ : Nat → Option ℚ) (cols : List Nat) (l : List (Nat × List (Option Nat))) (lp : Lp) :
    factorLoop (model ρ M) σ cols l lp = factorLoop M σ cols l lp := by
  induction l generalizing lp with
  | nil => rfl
  | cons p l ih =>
    obtain ⟨k, rows⟩ := p
    have h : ∀ ps lp, updatePairs (model ρ M).net cols ps lp = updatePairs M.net cols ps lp := updatePairs_rename M.net cols
    simp only [factorLoop, h, ih]
    rfl

theorem step_rename (M : Model) (s : Built) (st : StepState) : Solver.step (model ρ M) s st = Solver.step M s st := by
  have he : (model ρ M).net.edges = M.net.edges := rfl
  simp only [Solver.step, update, he, objective_rename, nodeBounds_rename, factorLoop_rename]
  rfl

/-! ## Simulations -/

/-- A simulation under new names. -/
def sim (ρ : String → String) (S : Sim) : Sim := { S with net := network ρ S.net }

theorem stateNet_rename (S : Sim) : (sim ρ S).stateNet = S.stateNet := by
  simp only [Sim.stateNet, sim, network_eq, List.map_map]
  rfl

theorem initialNetwork_rename (S : Sim) : (sim ρ S).initialNetwork = S.initialNetwork := by
  simp only [Sim.initialNetwork, sim, network_eq, List.map_map]
  rfl

theorem initial_rename (S : Sim) (big negBig : ℚ) : (sim ρ S).initial big negBig = S.initial big negBig := by
  have h : create (sim ρ S).model big negBig (sim ρ S).sets = create S.model big negBig S.sets := create_rename S.model big negBig S.sets
  simp only [Sim.initial, h, initialNetwork_rename]

theorem bounds_rename (S : Sim) (σ : Nat → Option ℚ) : (sim ρ S).bounds σ = S.bounds σ := by
  have h : (∀ n ∈ (sim ρ S).net.nodes, n.kind = .storage → ((sim ρ S).nodeVolumes σ n.index).isSome) ↔
      ∀ n ∈ S.net.nodes, n.kind = .storage → (S.nodeVolumes σ n.index).isSome := by
    have e : (sim ρ S).net.nodes = S.net.nodes.map (tnode ρ) := rfl
    rw [e, List.forall_mem_map]
    rfl
  simp only [Sim.bounds]
  refine if_congr (and_congr h Iff.rfl) rfl rfl

theorem simStep_rename (S : Sim) (inp : Inp) (s : SimState) : (sim ρ S).step inp s = S.step inp s := by
  have hp : ∀ b n, (sim ρ S).pre inp b n = S.pre inp b n := fun b n => by
    simp only [Sim.pre, stateNet_rename]; rfl
  have hs : ∀ st, Solver.step (sim ρ S).model s.solver st = Solver.step S.model s.solver st := fun st =>
    step_rename S.model s.solver st
  have ht : ∀ b n, (sim ρ S).stepState inp b n = S.stepState inp b n := fun _ _ => rfl
  simp only [Sim.step, bounds_rename, hp, hs, ht, stateNet_rename]

theorem run_rename (S : Sim) (inps : List Inp) (s : SimState) : (sim ρ S).run inps s = S.run inps s := by
  induction inps generalizing s with
  | nil => rfl
  | cons i is ih => simp only [Sim.run, simStep_rename, ih]

end Verif.Rename
