import Verif.Model.Stepping

/-!
# Specification of stepping and running

What it means for a scenario, for all scenarios and for a model to have gone through timesteps. Nothing here mentions
loops, indices, fuel or schedules.
-/

namespace Verif.Run

variable {T I S R E : Type}

/-- One scenario went through one timestep: all three computations, in order, without an error. -/
def Advanced (net : Network T I S R E) (t : T) (i : I) (s s' : S) : Prop :=
  ∃ s₁ s₂, net.compute t i s = (s₁, none) ∧ net.solve t i s₁ = (s₂, none) ∧ net.after t i s₂ = (s', none)

/-- One scenario went through a list of timesteps. -/
inductive Alone (net : Network T I S R E) (i : I) : List T → S → S → Prop
  | nil (s : S) : Alone net i [] s s
  | cons {t : T} {ts : List T} {s s₁ s' : S} : Advanced net t i s s₁ → Alone net i ts s₁ s' → Alone net i (t :: ts) s s'

/-- Every scenario went through one timestep. -/
inductive AllAdvanced (net : Network T I S R E) (t : T) : List I → List S → List S → Prop
  | nil : AllAdvanced net t [] [] []
  | cons {i : I} {is : List I} {s s' : S} {ss ss' : List S} : Advanced net t i s s' → AllAdvanced net t is ss ss' →
      AllAdvanced net t (i :: is) (s :: ss) (s' :: ss')

/-- The model went through exactly these timesteps, in this order: in each one every scenario was advanced and then the
recorders were saved. -/
inductive Executes (m : Model T I S R E) : List T → List S × R → List S × R → Prop
  | nil (x : List S × R) : Executes m [] x x
  | cons {t : T} {ts : List T} {ss ss₁ : List S} {r r₁ : R} {x : List S × R} : AllAdvanced m.network t m.scenarios ss ss₁ →
      m.network.save t m.scenarios ss₁ r = (r₁, none) → Executes m ts (ss₁, r₁) x → Executes m (t :: ts) (ss, r) x

end Verif.Run
