/-!
# Scenario domain

Transcribed from `/repo/pywr-core/src/scenario.rs`. Panics (`unwrap`, indexing out of range) are the error `panic`.
-/

namespace Verif.Scenario

/-- `ScenarioDomainBuilderError`, lines 9-31, plus `panic`. -/
inductive Err
  | duplicateGroupName (name : String)
  | combinationsAndSlices
  | noLabels (group : String)
  | labelNotFound (group label : String)
  | incorrectNumberOfLabels (group : String) (found expected : Nat)
  | invalidSlice (group : String) (size start stop : Nat)
  | panic
  deriving DecidableEq, Repr

/-- `ScenarioGroupSubset`, lines 35-40. -/
inductive Subset
  | slice (start stop : Nat)
  | indices (is : List Nat)
  deriving DecidableEq, Repr

/-- `ScenarioGroup`, lines 48-57. -/
structure Group where
  name : String
  size : Nat
  subset : Option Subset
  labels : Option (List String)
  deriving DecidableEq, Repr

/-- `ScenarioGroupSubsetBuilder`, lines 108-112. -/
inductive SubsetBuilder
  | slice (start stop : Nat)
  | indices (is : List Nat)
  | labels (ls : List String)

/-- `ScenarioGroupBuilder`, lines 119-124. -/
structure GroupBuilder where
  name : String
  size : Nat
  subset : Option SubsetBuilder
  labels : Option (List String)

/-- `iter().position(..)`. -/
def position {α : Type} [DecidableEq α] (a : α) : List α → Option Nat
  | [] => none
  | x :: xs => if x = a then some 0 else (position a xs).map (· + 1)

/-- `collect::<Result<Vec<_>, _>>()`: map until the first error. -/
def mapE {α β ε : Type} (f : α → Except ε β) : List α → Except ε (List β)
  | [] => .ok []
  | a :: as =>
    match f a with
    | .error e => .error e
    | .ok b =>
      match mapE f as with
      | .error e => .error e
      | .ok bs => .ok (b :: bs)

/-- The subset part of `ScenarioGroupBuilder::build`, lines 182-218. -/
def GroupBuilder.buildSubset (b : GroupBuilder) : Except Err (Option Subset) :=
  match b.subset with
  | none => .ok none
  | some (.slice start stop) =>
    if start ≥ stop ∨ stop > b.size then .error (.invalidSlice b.name b.size start stop)
    else .ok (some (.slice start stop))
  | some (.indices is) => .ok (some (.indices is))
  | some (.labels ls) =>
    match b.labels with
    | none => .error (.noLabels b.name)
    | some labels =>
      match mapE (fun l =>
          match position l labels with
          | none => Except.error (Err.labelNotFound b.name l)
          | some i => Except.ok i) ls with
      | .error e => .error e
      | .ok is => .ok (some (.indices is))

/-- `ScenarioGroupBuilder::build`, lines 181-236. -/
def GroupBuilder.build (b : GroupBuilder) : Except Err Group :=
  match b.buildSubset with
  | .error e => .error e
  | .ok subset =>
    match b.labels with
    | some labels =>
      if labels.length ≠ b.size then .error (.incorrectNumberOfLabels b.name labels.length b.size)
      else .ok ⟨b.name, b.size, subset, b.labels⟩
    | none => .ok ⟨b.name, b.size, subset, b.labels⟩

/-- `ScenarioLabelOrIndex`, lines 240-243. -/
inductive LabelOrIndex
  | label (l : String)
  | index (i : Nat)
  deriving DecidableEq, Repr

/-- `ScenarioDomainBuilder`, lines 265-268. -/
structure DomainBuilder where
  groups : List Group
  combinations : Option (List (List LabelOrIndex))

/-- `with_group`, lines 285-295. -/
def DomainBuilder.withGroup (b : DomainBuilder) (g : Group) : Except Err DomainBuilder :=
  if b.groups.any (fun h => h.name == g.name) then .error (.duplicateGroupName g.name)
  else .ok { b with groups := b.groups ++ [g] }

/-- `ScenarioIndex`, lines 599-608: simulation id, simulation indices, optional schema id and indices, labels. -/
structure Index where
  simulationId : Nat
  simulationIndices : List Nat
  schema : Option (Nat × List Nat)
  labels : List String
  deriving DecidableEq, Repr

/-- `ScenarioDomain`, lines 688-692. -/
structure Domain where
  indices : List Index
  groups : List Group
  scenarioMap : List (Option (List Nat))
  deriving DecidableEq, Repr

/-- `ScenarioIndex::simulation_index_for_group`, lines 653-655 (`none` is the panic). -/
def Index.simulationIndexForGroup (s : Index) (g : Nat) : Option Nat := s.simulationIndices[g]?

/-- `ScenarioIndex::schema_index_for_group`, lines 663-667 (`none` is the panic). -/
def Index.schemaIndexForGroup (s : Index) (g : Nat) : Option Nat :=
  match s.schema with
  | none => s.simulationIndices[g]?
  | some (_, is) => is[g]?

/-- `ScenarioIndex::default`, lines 553-560 and 610-618. -/
def Index.default : Index := ⟨0, [0], none, ["0"]⟩

/-- `ScenarioGroup::default`, lines 59-68. -/
def Group.default : Group := ⟨"Default", 1, none, none⟩

/-- One entry of `build_scenario_map_from_subsets`, lines 313-334. -/
def Group.scenarioMap (g : Group) : Option (List Nat) :=
  match g.subset with
  | none => none
  | some (.slice start stop) => some ((List.range (stop - start)).map (start + ·))
  | some (.indices is) => some is

/-- The decode loop of lines 460-476, on the reversed group sizes, least significant first. -/
def decodeRev : List Nat → Nat → List Nat
  | [], _ => []
  | s :: ss, remaining => (remaining % s) :: decodeRev ss (remaining / s)

/-- Lines 460-477: schema indices of a scenario id, one per group. -/
def decode (sizes : List Nat) (id : Nat) : List Nat := (decodeRev sizes.reverse id).reverse

/-- The label of one group, lines 470-473 and 434-437. -/
def Group.labelFor (g : Group) (idx : Nat) : Except Err String :=
  match g.labels with
  | none => .ok (toString idx)
  | some labels =>
    match labels[idx]? with
    | none => .error .panic
    | some l => .ok l

/-- Labels of all groups, in group order. -/
def labelsFor : List Group → List Nat → Except Err (List String)
  | g :: gs, i :: is =>
    match g.labelFor i with
    | .error e => .error e
    | .ok l =>
      match labelsFor gs is with
      | .error e => .error e
      | .ok ls => .ok (l :: ls)
  | _, _ => .ok []

/-- The body of the inclusion loop, lines 486-508, for one group: the simulation index or `none` to skip. -/
def Group.simIndex (g : Group) (schemaIdx : Nat) : Option Nat :=
  match g.subset with
  | none => some schemaIdx
  | some (.slice start stop) =>
    if schemaIdx < start ∨ schemaIdx ≥ stop then none else some (schemaIdx - start)
  | some (.indices is) => position schemaIdx is

/-- The inclusion loop, lines 480-509: `none` if any group skips the scenario. -/
def simIndices : List Group → List Nat → Option (List Nat)
  | g :: gs, i :: is =>
    match g.simIndex i with
    | none => none
    | some s =>
      match simIndices gs is with
      | none => none
      | some ss => some (s :: ss)
  | _, _ => some []

/-- The loop over scenario ids, lines 459-522; `acc` are the scenarios pushed so far. -/
def subsetLoop (groups : List Group) (isSliced : Bool) : List Nat → List Index → Except Err (List Index)
  | [], acc => .ok acc
  | id :: ids, acc =>
    let schemaIdx := decode (groups.map (·.size)) id
    match labelsFor groups schemaIdx with
    | .error e => .error e
    | .ok labels =>
      match simIndices groups schemaIdx with
      | none => subsetLoop groups isSliced ids acc
      | some sim =>
        subsetLoop groups isSliced ids
          (acc ++ [⟨acc.length, sim, if isSliced then some (id, schemaIdx) else none, labels⟩])

/-- Product of the group sizes, line 394. -/
def prod : List Nat → Nat
  | [] => 1
  | n :: ns => n * prod ns

/-- Full and sub-setted path of `build`, lines 449-524. -/
def buildSubset (groups : List Group) : Except Err Domain :=
  let map := groups.map Group.scenarioMap
  let isSliced := map.any Option.isSome
  match subsetLoop groups isSliced (List.range (prod (groups.map (·.size)))) [] with
  | .error e => .error e
  | .ok indices => .ok ⟨indices, groups, map⟩

/-- `ScenarioGroup::label_position`, lines 89-104. -/
def Group.labelPosition (g : Group) (label : String) : Except Err Nat :=
  match g.labels with
  | none => .error (.noLabels g.name)
  | some labels =>
    match position label labels with
    | none => .error (.labelNotFound g.name label)
    | some i => .ok i

/-- One combination turned into indices, lines 407-414 (`zip` stops at the shorter list). -/
def resolveCombination (groups : List Group) (c : List LabelOrIndex) : Except Err (List Nat) :=
  mapE (fun (p : LabelOrIndex × Group) =>
    match p.1 with
    | .label l => p.2.labelPosition l
    | .index i => .ok i) (c.zip groups)

/-- Insert into a sorted list without duplicates: `BTreeSet::insert`. -/
def sortedInsert (a : Nat) : List Nat → List Nat
  | [] => [a]
  | x :: xs => if a < x then a :: x :: xs else if a = x then x :: xs else x :: sortedInsert a xs

/-- The set of indices used for one group, lines 338-358; `none` if a combination is too short (the panic on line 342).
The inner `Option` is `None` for an empty set. -/
def combinationMapFor (g : Nat) : List (List Nat) → Option (List Nat)
  | [] => some []
  | c :: cs =>
    match c[g]?, combinationMapFor g cs with
    | some i, some is => some (sortedInsert i is)
    | _, _ => none

/-- `build_scenario_map_from_combinations`, lines 337-358. -/
def combinationMap (numGroups : Nat) (cs : List (List Nat)) : Except Err (List (Option (List Nat))) :=
  mapE (fun g =>
    match combinationMapFor g cs with
    | none => Except.error Err.panic
    | some [] => Except.ok none
    | some is => Except.ok (some is)) (List.range numGroups)

/-- `schema_id`, lines 360-368: the first group varies fastest. -/
def schemaId : List Nat → List Nat → Nat → Nat
  | s :: ss, c :: cs, multiplier => c * multiplier + schemaId ss cs (multiplier * s)
  | _, _, _ => 0

/-- Simulation indices of a combination, lines 421-428. -/
def combinationSim (map : List (Option (List Nat))) (c : List Nat) : Except Err (List Nat) :=
  mapE (fun (p : Option (List Nat) × Nat) =>
    match p.1 with
    | none => .ok p.2
    | some set =>
      match position p.2 set with
      | none => .error .panic
      | some i => .ok i) (map.zip c)

/-- The loop of lines 420-447. -/
def combinationLoop (groups : List Group) (map : List (Option (List Nat))) :
    List (List Nat) → List Index → Except Err (List Index)
  | [], acc => .ok acc
  | c :: cs, acc =>
    match combinationSim map c with
    | .error e => .error e
    | .ok sim =>
      match labelsFor groups c with
      | .error e => .error e
      | .ok labels =>
        combinationLoop groups map cs
          (acc ++ [⟨acc.length, sim, some (schemaId (groups.map (·.size)) c 1, c), labels⟩])

/-- Combination path of `build`, lines 402-448. -/
def buildCombinations (groups : List Group) (combs : List (List LabelOrIndex)) : Except Err Domain :=
  match mapE (resolveCombination groups) combs with
  | .error e => .error e
  | .ok cs =>
    match combinationMap groups.length cs with
    | .error e => .error e
    | .ok map =>
      match combinationLoop groups map cs [] with
      | .error e => .error e
      | .ok indices => .ok ⟨indices, groups, map⟩

/-- `ScenarioDomainBuilder::build`, lines 385-534. -/
def DomainBuilder.build (b : DomainBuilder) : Except Err Domain :=
  match b.groups with
  | [] => .ok ⟨[Index.default], [Group.default], [none]⟩
  | _ =>
    match b.combinations with
    | some combs =>
      if b.groups.any (fun g => g.subset.isSome) then .error .combinationsAndSlices
      else buildCombinations b.groups combs
    | none => buildSubset b.groups

/-- `group_index`, lines 718-723. -/
def Domain.groupIndex (d : Domain) (name : String) : Option Nat := position name (d.groups.map (·.name))

/-- `group_scenario_subset`, lines 736-739: outer `none` is the error, inner `none` means no subset. -/
def Domain.groupScenarioSubset (d : Domain) (name : String) : Option (Option (List Nat)) :=
  match d.groupIndex name with
  | none => none
  | some i => d.scenarioMap[i]?

end Verif.Scenario
