import Mathlib.Data.List.Basic
import Mathlib.Algebra.Order.Field.Rat

/-!
# Models of several networks

Model of the transfers between networks in `pywr-core/src/models/multi.rs`. `N` is a network and `S` the state of one
scenario of it without its transfer values; what a network does in a step is a parameter. The metric of a transfer is
taken as already resolved. Recorders, which only read the states, are left out, and so is the state left behind by a step
that fails.
-/

namespace Verif.Multi

/-- `OtherNetworkIndex`, lines 43-47. The number is never zero. -/
inductive Other
  | before (n : Nat)
  | after (n : Nat)
  deriving DecidableEq, Repr

/-- `OtherNetworkIndex::from_indices`, lines 53-60. -/
def fromIndices (fromIdx toIdx : Nat) : Option Other :=
  if fromIdx = toIdx then none
  else if fromIdx < toIdx then some (.before (toIdx - fromIdx))
  else some (.after (fromIdx - toIdx))

/-- The state of one scenario of one network; `inter_network_values` of `State` are the transfer values. -/
structure Scenario (S : Type) where
  inner : S
  transfers : List ℚ
  deriving DecidableEq, Repr

/-- `MultiNetworkTransferBuilder`, lines 91-100. The value of the metric is `none` if it cannot be retrieved. -/
structure TransferDecl (N S : Type) where
  name : String
  fromModel : String
  metric : N → Scenario S → Option ℚ
  initial : Option ℚ

/-- `MultiNetworkEntryBuilder`, lines 124-128. -/
structure Decl (N S : Type) where
  name : String
  network : N
  transfers : List (TransferDecl N S)

/-- `MultiNetworkTransfer`, lines 81-88. -/
structure Transfer (N S : Type) where
  source : Other
  metric : N → Scenario S → Option ℚ
  initial : Option ℚ

/-- `MultiNetworkEntry`, lines 118-122. -/
structure Entry (N S : Type) where
  name : String
  network : N
  transfers : List (Transfer N S)

/-- `MultiNetworkModelBuilderError`, lines 930-956, as far as modelled. -/
inductive BuildError
  | networkNotFound (transfer network : String)
  | duplicateNetwork (name : String)
  | duplicateTransfer (transfer network : String)
  | transferToSelf (transfer network : String)
  deriving DecidableEq, Repr

variable {N S T : Type}

/-- The map of transfer names, lines 1015-1027; the error is the name that occurs twice. -/
def transferNames : List String → List (TransferDecl N S) → Except String (List String)
  | seen, [] => .ok seen
  | seen, t :: ts => if t.name ∈ seen then .error t.name else transferNames (seen ++ [t.name]) ts

/-- The first loop of `build`, lines 1012-1047: the map of network names to indices. -/
def networkMap : List (String × Nat) → Nat → List (Decl N S) → Except BuildError (List (String × Nat))
  | map, _, [] => .ok map
  | map, i, d :: ds =>
    match transferNames [] d.transfers with
    | .error t => .error (.duplicateTransfer t d.name)
    | .ok _ =>
      if d.name ∈ map.map (·.1) then .error (.duplicateNetwork d.name)
      else networkMap (map ++ [(d.name, i)]) (i + 1) ds

/-- The closure over the transfers of one network, lines 1052-1087. -/
def buildTransfers (map : List (String × Nat)) (k : Nat) (network : String) : List (TransferDecl N S) → Except BuildError (List (Transfer N S))
  | [] => .ok []
  | t :: ts =>
    match map.lookup t.fromModel with
    | none => .error (.networkNotFound t.name t.fromModel)
    | some idx =>
      match fromIndices idx k with
      | none => .error (.transferToSelf t.name network)
      | some source =>
        match buildTransfers map k network ts with
        | .error e => .error e
        | .ok ts => .ok ({ source := source, metric := t.metric, initial := t.initial } :: ts)

/-- The second loop of `build`, lines 1049-1095. `entries.len()` is the index of the network. -/
def buildEntries (map : List (String × Nat)) : Nat → List (Decl N S) → Except BuildError (List (Entry N S))
  | _, [] => .ok []
  | k, d :: ds =>
    match buildTransfers map k d.name d.transfers with
    | .error e => .error e
    | .ok ts =>
      match buildEntries map (k + 1) ds with
      | .error e => .error e
      | .ok es => .ok ({ name := d.name, network := d.network, transfers := ts } :: es)

/-- `MultiNetworkModelBuilder::build`, lines 1007-1101. -/
def build (ds : List (Decl N S)) : Except BuildError (List (Entry N S)) :=
  match networkMap [] 0 ds with
  | .error e => .error e
  | .ok map => buildEntries map 0 ds

/-- `MultiNetworkModelStepError`, lines 180-204, and the panics of indexing. -/
inductive StepError
  | transfer
  | network
  | panic
  deriving DecidableEq, Repr

/-- The network and the state of one of its scenarios that a transfer reads, lines 1137-1143. -/
def sourceOf (beforeModels : List (Entry N S)) (beforeStates : List (List (Scenario S))) (afterModels : List (Entry N S))
    (afterStates : List (List (Scenario S))) (q : Nat) (o : Other) : Option (N × Scenario S) :=
  match o with
  | .before i =>
    if beforeStates.length < i then none
    else
      let rev := beforeStates.length - i
      match beforeModels[rev]?, beforeStates[rev]?.bind (·[q]?) with
      | some e, some s => some (e.network, s)
      | _, _ => none
  | .after i =>
    match afterModels[i - 1]?, afterStates[i - 1]?.bind (·[q]?) with
    | some e, some s => some (e.network, s)
    | _, _ => none

/-- The value of a transfer, lines 1145-1156: the initial value in the first timestep if there is one, and otherwise that
of the metric. -/
def chosen (first : Bool) (t : Transfer N S) (n : N) (s : Scenario S) : Option ℚ :=
  match (if first then t.initial else none) with
  | some v => some v
  | none => t.metric n s

/-- The loop of the function `compute_inter_network_transfers`, lines 1135-1167, for one scenario. -/
def transferValues (first : Bool) (source : Other → Option (N × Scenario S)) : Nat → List (Transfer N S) → List ℚ → Except StepError (List ℚ)
  | _, [], values => .ok values
  | idx, t :: ts, values =>
    match source t.source with
    | none => .error .panic
    | some (n, s) =>
      match chosen first t n s with
      | none => .error .transfer
      | some v =>
        if idx < values.length then transferValues first source (idx + 1) ts (values.set idx v)
        else .error .transfer

/-- The method `compute_inter_network_transfers`, lines 486-519: the loop over the scenarios of network `k`. -/
def deliver (entries : List (Entry N S)) (first : Bool) (k : Nat) (states : List (List (Scenario S))) (e : Entry N S) :
    Nat → List (Scenario S) → Except StepError (List (Scenario S))
  | _, [] => .ok []
  | q, s :: ss =>
    match transferValues first (sourceOf (entries.take k) (states.take k) (entries.drop (k + 1)) (states.drop (k + 1)) q) 0 e.transfers s.transfers with
    | .error err => .error err
    | .ok values =>
      match deliver entries first k states e (q + 1) ss with
      | .error err => .error err
      | .ok ss => .ok ({ s with transfers := values } :: ss)

/-- The loop over the networks of `MultiNetworkModel::step`, lines 539-590, from network `k` on. `run` is the step of a
network (`Network::step`), which reads the transfer values but does not change them. -/
def stepFrom (run : N → T → List (Scenario S) → Option (List S)) (entries : List (Entry N S)) (t : T) (first : Bool) :
    Nat → List (Entry N S) → List (List (Scenario S)) → Except StepError (List (List (Scenario S)))
  | _, [], states => .ok states
  | k, e :: es, states =>
    match states[k]? with
    | none => .error .panic
    | some this =>
      match deliver entries first k states e 0 this with
      | .error err => .error err
      | .ok this =>
        match run e.network t this with
        | none => .error .network
        | some inner =>
          stepFrom run entries t first (k + 1) es
            (states.set k (List.zipWith (fun s x => { s with inner := x }) this inner))

/-- `MultiNetworkModel::step`, lines 522-597, at a given timestep. -/
def step (run : N → T → List (Scenario S) → Option (List S)) (entries : List (Entry N S)) (t : T) (first : Bool)
    (states : List (List (Scenario S))) : Except StepError (List (List (Scenario S))) :=
  stepFrom run entries t first 0 entries states

/-- The states before each step and after the last one, for the timesteps of a run; the first timestep is the one with
index 0. -/
def trace (run : N → T → List (Scenario S) → Option (List S)) (entries : List (Entry N S)) : Nat → List T → List (List (Scenario S)) →
    Except StepError (List (List (List (Scenario S))))
  | _, [], states => .ok [states]
  | i, t :: ts, states =>
    match step run entries t (i == 0) states with
    | .error e => .error e
    | .ok states' =>
      match trace run entries (i + 1) ts states' with
      | .error e => .error e
      | .ok rest => .ok (states :: rest)

end Verif.Multi
