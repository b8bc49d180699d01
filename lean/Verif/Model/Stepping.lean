import Mathlib.Data.List.Basic

/-!
# Stepping and running a model

Model of the control flow of `pywr-core/src/models/simple.rs` (`Model::step`, `Model::run_with_state`) and of
`pywr-core/src/network.rs` (`Network::step`, `step_par`, `step_multi_scenario`).

What the components of a network do in a step is a parameter of the model, so the theorems hold for every network. A
function that mutates a state in place and may return an error early is a function from the state to the state it leaves
behind and the error, if any. `S` is everything the loop over the scenarios hands to one scenario: its network state, the
internal states of its parameters and metric sets, and its solver. The timings are left out.
-/

namespace Verif.Run

/-- The computations of a network: what happens before the solve (`Network::compute_components`, `network.rs:995-1034`),
the solve (`Solver::solve`), what happens after it (`Network::after`, `network.rs:1043-1074`), each for one timestep and one
scenario, and the saving of the recorders (`Network::save_recorders`, `network.rs:1076-1103`). -/
structure Network (T I S R E : Type) where
  compute : T → I → S → S × Option E
  solve : T → I → S → S × Option E
  after : T → I → S → S × Option E
  save : T → List I → List S → R → R × Option E

variable {T I S R E : Type}

/-- The `?` operator between two computations on the same state. -/
def andThen (r : S × Option E) (f : S → S × Option E) : S × Option E :=
  match r with
  | (s, some e) => (s, some e)
  | (s, none) => f s

/-- The body of the loop over scenarios of `Network::step`, `network.rs:775-811`. -/
def scenarioStep (net : Network T I S R E) (t : T) (i : I) (s : S) : S × Option E :=
  andThen (andThen (net.compute t i s) (net.solve t i)) (net.after t i)

/-- `Network::step`, `network.rs:758-814`: `try_for_each` over the scenarios stops at the first error. -/
def stepAll (net : Network T I S R E) (t : T) : List I → List S → List S × Option E
  | i :: is, s :: ss =>
    match scenarioStep net t i s with
    | (s, some e) => (s :: ss, some e)
    | (s, none) =>
      let (ss, e) := stepAll net t is ss
      (s :: ss, e)
  | _, ss => (ss, none)

/-! `Network::step_par`, `network.rs:821-880`. The scenarios are worked on by a pool of threads. Each thread goes through
the three computations of its scenario; their interleaving is arbitrary. A scenario is a pair of the number of
computations it has done and its state. An error is unwrapped, so it is a panic: `none`. -/

/-- The next computation of one scenario. -/
def advance (net : Network T I S R E) (t : T) (i : I) (c : Nat × S) : Option (Nat × S) :=
  let next := fun (r : S × Option E) =>
    match r with
    | (_, some _) => none
    | (s, none) => some (c.1 + 1, s)
  match c.1 with
  | 0 => next (net.compute t i c.2)
  | 1 => next (net.solve t i c.2)
  | 2 => next (net.after t i c.2)
  | _ => some c

/-- The next computation of the `k`-th scenario; nothing happens if there is no such scenario. -/
def fire (net : Network T I S R E) (t : T) : List I → List (Nat × S) → Nat → Option (List (Nat × S))
  | i :: _, c :: cs, 0 => (advance net t i c).map (· :: cs)
  | _ :: is, c :: cs, k + 1 => (fire net t is cs k).map (c :: ·)
  | _, cs, _ => some cs

/-- The computations in the order of a schedule, which lists the scenario that is next. -/
def fireAll (net : Network T I S R E) (t : T) (is : List I) : List (Nat × S) → List Nat → Option (List (Nat × S))
  | cs, [] => some cs
  | cs, k :: ks =>
    match fire net t is cs k with
    | none => none
    | some cs => fireAll net t is cs ks

/-- `Network::step_par` under a schedule. -/
def stepPar (net : Network T I S R E) (t : T) (is : List I) (ss : List S) (schedule : List Nat) : Option (List (Nat × S)) :=
  fireAll net t is (ss.map fun s => (0, s)) schedule

/-- `Network::step_multi_scenario`, `network.rs:883-950`, with a solver for all scenarios at once. `none` is a panic. -/
def stepMulti (net : Network T I S R E) (solveAll : T → List S → List S × Option E) (t : T) (is : List I) (ss : List S) : Option (List S) :=
  let phase := fun (f : I → S → S × Option E) (ss : List S) =>
    if ((is.zip ss).any fun p => (f p.1 p.2).2.isSome) then none
    else some ((is.zip ss).map fun p => (f p.1 p.2).1)
  match phase (net.compute t) ss with
  | none => none
  | some ss =>
    match solveAll t ss with
    | (_, some _) => none
    | (ss, none) => phase (net.after t) ss

/-! ## Models -/

/-- `Model` with the time and scenario domains, `models/simple.rs:201-204`. -/
structure Model (T I S R E : Type) where
  timesteps : List T
  scenarios : List I
  network : Network T I S R E

/-- `ModelState`, `models/simple.rs:28-33`. -/
structure State (S R : Type) where
  current : Nat
  states : List S
  recorders : R
  deriving DecidableEq, Repr

/-- `ModelStepError`, `models/simple.rs:62-77`. -/
inductive StepError (T E : Type)
  | endOfTimesteps
  | network (timestep : T) (source : E)
  | recorder (timestep : T) (source : E)
  deriving DecidableEq, Repr

/-- `Model::step` without a thread pool, `models/simple.rs:304-364`. -/
def step (m : Model T I S R E) (st : State S R) : State S R × Option (StepError T E) :=
  match m.timesteps[st.current]? with
  | none => (st, some .endOfTimesteps)
  | some t =>
    match stepAll m.network t m.scenarios st.states with
    | (ss, some e) => ({ st with states := ss }, some (.network t e))
    | (ss, none) =>
      match m.network.save t m.scenarios ss st.recorders with
      | (r, some e) => ({ st with states := ss, recorders := r }, some (.recorder t e))
      | (r, none) => ({ current := st.current + 1, states := ss, recorders := r }, none)

/-- The loop of `Model::run_with_state`, `models/simple.rs:522-534`. `none` stands for a loop that has not ended (see
`C45_terminates`). -/
def loop (m : Model T I S R E) : Nat → State S R → Option (State S R × Option (StepError T E))
  | 0, _ => none
  | fuel + 1, st =>
    match step m st with
    | (st, none) => loop m fuel st
    | (st, some .endOfTimesteps) => some (st, none)
    | (st, some e) => some (st, some e)

end Verif.Run
