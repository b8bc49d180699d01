import Verif.Model.Load

/-!
# Networks in different worlds

What parameters calculate depends on the state of the nodes only through the metrics they read. If the states of two networks
correspond, and so do their metrics, their runs correspond.
-/

namespace Verif.Params

variable {V S W W' : Type} (φ : W → W')

/-- Calculations in corresponding worlds. -/
structure Calcs.Alike (k : Calcs V S W) (k' : Calcs V S W') : Prop where
  zero : k'.zero = k.zero
  setup : k'.setup = k.setup
  compute : ∀ n stage t w s vs, k'.compute n stage t (w.map φ) s vs = k.compute n stage t w s vs
  hook : ∀ n t w s vs, k'.hook n t (φ w) s vs = k.hook n t w s vs
  nodes : ∀ t w vs, k'.nodes t (φ w) vs = (k.nodes t w vs).map φ
  solve : ∀ t w vs, k'.solve t (φ w) vs = (k.solve t w vs).map φ

/-- The corresponding scene. -/
def Scene.to (x : Scene V S W) : Scene V S W' := ⟨x.store, x.inner, φ x.world⟩

variable {φ} {k : Calcs V S W} {k' : Calcs V S W'} (H : k.Alike φ k')
include H

theorem calcOp_alike (stage : Stage) (t : Nat) (op : Op) (x : Scene V S W) :
    calcOp k' stage t op (x.to φ) = (calcOp k stage t op x).map (Scene.to φ) := by
  have hs : sees stage (φ x.world) = (sees stage x.world).map φ := by cases stage <;> rfl
  unfold calcOp
  cases op.out with
  | some s =>
    simp only [Scene.to, hs, H.compute]
    cases k.compute op.name stage t (sees stage x.world) (x.inner op.name) (valuesOf x.store op.reads) <;> rfl
  | none =>
    simp only [Scene.to, H.hook]
    cases k.hook op.name t x.world (x.inner op.name) (valuesOf x.store op.reads) <;> rfl

theorem calcAll_alike (stage : Stage) (t : Nat) (ops : List Op) (x : Scene V S W) :
    calcAll k' stage t ops (x.to φ) = (calcAll k stage t ops x).map (Scene.to φ) := by
  induction ops generalizing x with
  | nil => rfl
  | cons op ops ih =>
    simp only [calcAll, calcOp_alike H]
    cases calcOp k stage t op x with
    | none => rfl
    | some y => exact ih y

theorem startScene_alike (net : Network) (w : W) : startScene k' net (φ w) = (startScene k net w).map (Scene.to φ) := by
  simp only [startScene, H.zero, H.setup]
  exact calcAll_alike H .const 0 _ ⟨fun _ => k.zero, k.setup, w⟩

theorem stepScene_alike (net : Network) (t : Nat) (x : Scene V S W) :
    stepScene k' net t (x.to φ) = (stepScene k net t x).map (Scene.to φ) := by
  simp only [stepScene, calcAll_alike H]
  cases calcAll k .simple t (net.params.ops .simple) x with
  | none => rfl
  | some x₁ =>
    simp only [Option.map_some]
    rw [show (x₁.to φ).world = φ x₁.world from rfl, H.nodes, show (x₁.to φ).store = x₁.store from rfl]
    cases k.nodes t x₁.world (valuesOf x₁.store net.nodeReads) with
    | none => rfl
    | some w₁ =>
      simp only [Option.map_some]
      have h := calcAll_alike H .before t (net.params.ops .before) { x₁ with world := w₁ }
      rw [show (⟨x₁.store, (x₁.to φ).inner, φ w₁⟩ : Scene V S W') = Scene.to φ { x₁ with world := w₁ } from rfl, h]
      cases calcAll k .before t (net.params.ops .before) { x₁ with world := w₁ } with
      | none => rfl
      | some x₂ =>
        simp only [Option.map_some]
        rw [show (x₂.to φ).world = φ x₂.world from rfl, H.solve, show (x₂.to φ).store = x₂.store from rfl]
        cases k.solve t x₂.world (valuesOf x₂.store net.solveReads) with
        | none => rfl
        | some w₂ => exact calcAll_alike H .after t (net.params.ops .after) { x₂ with world := w₂ }

theorem runScene_alike (net : Network) (w : W) (n : Nat) : runScene k' net (φ w) n = (runScene k net w n).map (Scene.to φ) := by
  induction n with
  | zero => exact startScene_alike H net w
  | succ n ih =>
    simp only [runScene, ih]
    cases runScene k net w n with
    | none => rfl
    | some x => exact stepScene_alike H net n x

theorem report_alike (net : Network) (w : W) (refs : List Ref) (n : Nat) :
    report k' net (φ w) refs n = (report k net w refs n).map fun o => o.map fun p => (φ p.1, p.2) := by
  simp only [report, runScene_alike H]
  cases resolveAll net.params.maps (refs.map fun r => ⟨r, .after⟩) with
  | error e => rfl
  | ok reads =>
    simp only [Option.map_some, Option.map_map]
    rfl

end Verif.Params

namespace Verif.Kinds

open Verif.Params

variable {W W' : Type}

/-- A metric seen from another world. -/
def Source.pull (φ : W → W') : Source W' → Source W
  | .lit v => .lit v
  | .node f => .node fun w => f (φ w)
  | .param r => .param r

/-- A parameter with other metrics. -/
def Kind.over (g : Source W' → Source W) : Kind W' → Kind W
  | .constant v => .constant v
  | .scheduled f => .scheduled f
  | .vector vs => .vector vs
  | .offset s o => .offset (g s) o
  | .min s o => .min (g s) o
  | .max s o => .max (g s) o
  | .negative s => .negative (g s)
  | .negativeMin s o => .negativeMin (g s) o
  | .negativeMax s o => .negativeMax (g s) o
  | .polynomial s a b c => .polynomial (g s) a b c
  | .discount s y => .discount (g s) y
  | .division a b p => .division (g a) (g b) p
  | .deficit a b => .deficit (g a) (g b)
  | .difference a b lo hi => .difference (g a) (g b) (lo.map g) (hi.map g)
  | .volumeBetween a b c => .volumeBetween (g a) (g b) (g c)
  | .indexed i ms => .indexed (g i) (ms.map g)
  | .aggregated ms f p => .aggregated (ms.map g) f p
  | .aggregatedIndex ms f p => .aggregatedIndex (ms.map g) f p
  | .other ms f => .other (ms.map g) f
  | .otherIndex ms f => .otherIndex (ms.map g) f
  | .delay s d i => .delay (g s) d i
  | .delayIndex s d i => .delayIndex (g s) d i
  | .rolling s w i m f => .rolling (g s) w i m f
  | .rollingIndex s w i m f => .rollingIndex (g s) w i m f
  | .asymmetric a b => .asymmetric (g a) (g b)
  | .threshold a b p r => .threshold (g a) (g b) p r
  | .multiThreshold a bs p r => .multiThreshold (g a) (bs.map g) p r

/-- A named parameter seen from another world. -/
def Param.pull (φ : W → W') (p : Param W') : Param W := ⟨p.name, p.kind.over (Source.pull φ)⟩

section over
variable (g : Source W' → Source W)

theorem over_sources (k : Kind W') : (k.over g).sources = k.sources.map g := by
  cases k with
  | difference a b lo hi => cases lo <;> cases hi <;> rfl
  | _ => rfl

theorem over_eval (e : Env) (t : Nat) (k : Kind W') (xs : List (Option Val)) : (k.over g).eval e t xs = k.eval e t xs := by
  cases k with
  | difference a b lo hi =>
    cases lo <;> cases hi <;> rcases xs with _ | ⟨_ | _, _ | ⟨_ | _, _ | ⟨_ | _, _ | ⟨_ | _, _ | _⟩⟩⟩⟩ <;> rfl
  | _ => first | rfl | (rcases xs with _ | ⟨_ | _, _ | ⟨_ | _, _ | ⟨_ | _, _ | _⟩⟩⟩ <;> rfl)

theorem over_calc (e : Env) (k : Kind W') (stage : Stage) (t : Nat) (s : Inner) (xs : List (Option Val)) :
    (k.over g).calc e stage t s xs = k.calc e stage t s xs := by
  have h := congrArg (fun o => o.map fun v => (v, s)) (over_eval g e t k xs)
  cases k <;> cases s <;> first | rfl | exact h

theorem over_remember (k : Kind W') (s : Inner) (xs : List (Option Val)) : (k.over g).remember s xs = k.remember s xs := by
  cases k <;> first | rfl | (cases s <;> rcases xs with _ | ⟨_ | _, _ | _⟩ <;> rfl)

theorem over_setup (k : Kind W') : (k.over g).setup = k.setup := by cases k <;> rfl

end over

variable (φ : W → W')

theorem pull_ref (s : Source W') : (s.pull φ).ref = s.ref := by cases s <;> rfl

theorem pull_refs (ss : List (Source W')) : (ss.map (Source.pull φ)).map Source.ref = ss.map Source.ref := by
  simp only [List.map_map, Function.comp_def, pull_ref]

theorem over_builder (n : Name) (k : Kind W') : (k.over (Source.pull φ)).builder n = k.builder n := by
  unfold Kind.builder
  rw [over_sources, List.map_map]
  have h : ((fun s : Source W => (⟨s.ref, (k.over (Source.pull φ)).phase⟩ : Use)) ∘ Source.pull φ) = fun s => ⟨s.ref, k.phase⟩ := by
    funext s
    simp only [Function.comp_apply, pull_ref]
    cases k <;> rfl
  rw [h]
  cases k <;> rfl

theorem pull_builders (ps : List (Param W')) : builders (ps.map (Param.pull φ)) = builders ps := by
  simp only [builders, List.map_map, Function.comp_def, Param.pull, over_builder]

theorem pull_kindOf (ps : List (Param W')) (n : Name) :
    kindOf (ps.map (Param.pull φ)) n = (kindOf ps n).map (Kind.over (Source.pull φ)) := by
  simp only [kindOf, List.find?_map, Option.map_map]
  rfl

theorem pull_fetch (w : Option W) (ss : List (Source W')) (vs : List Val) :
    fetch w (ss.map (Source.pull φ)) vs = fetch (w.map φ) ss vs := by
  induction ss generalizing vs with
  | nil => rfl
  | cons s ss ih =>
    cases s with
    | lit v => simp only [List.map_cons, Source.pull, fetch, ih]
    | node f =>
      simp only [List.map_cons, Source.pull, fetch, ih]
      cases w <;> rfl
    | param r => cases r <;> cases vs <;> simp only [List.map_cons, Source.pull, fetch, ih]

theorem calcs_alike (e : Env) (ps : List (Param W')) {nodes solve : Nat → W → List Val → Option W}
    {nodes' solve' : Nat → W' → List Val → Option W'} (hn : ∀ t w vs, nodes' t (φ w) vs = (nodes t w vs).map φ)
    (hs : ∀ t w vs, solve' t (φ w) vs = (solve t w vs).map φ) :
    (calcs e (ps.map (Param.pull φ)) nodes solve).Alike φ (calcs e ps nodes' solve') := by
  constructor
  · rfl
  · funext n
    simp only [calcs, pull_kindOf]
    cases kindOf ps n with
    | none => rfl
    | some k => exact (over_setup _ k).symm
  · intro n stage t w s vs
    simp only [calcs, pull_kindOf]
    cases kindOf ps n with
    | none => rfl
    | some k => simp only [Option.map_some, Kind.compute, over_calc, over_sources, pull_fetch]
  · intro n t w s vs
    simp only [calcs, pull_kindOf]
    cases kindOf ps n with
    | none => rfl
    | some k => simp only [Option.map_some, Kind.hook, over_remember, over_sources, pull_fetch]
  · exact hn
  · exact hs

end Verif.Kinds
