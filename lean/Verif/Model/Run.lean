/-!
# Runs of a stateful parameter

A parameter with an internal state is evaluated once per timestep of a scenario
(`/repo/pywr-core/src/network.rs:758-814`, which calls the before and after phases once per timestep
and scenario). `runSteps` threads the internal state through a list of per-timestep inputs, stopping at
the first error, as `?` does.
-/

namespace Verif

/-- Thread a state through a list of inputs, collecting the outputs; stop at the first error.
Follows the timestep loop of `/repo/pywr-core/src/models/simple.rs:502-537` restricted to one parameter. -/
def runSteps {σ ι o ε : Type} (step : σ → ι → Except ε (o × σ)) : σ → List ι → Except ε (List o × σ)
  | s, [] => .ok ([], s)
  | s, i :: is =>
    match step s i with
    | .error e => .error e
    | .ok (v, s') =>
      match runSteps step s' is with
      | .error e => .error e
      | .ok (vs, s'') => .ok (v :: vs, s'')

end Verif
