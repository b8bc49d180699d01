import Verif.Model.SchemaParams

/-! # Specification of piecewise storages -/

namespace Verif.Schema

open Verif.Solver (Metric)

/-- The core nodes created for a node of the schema, in order. -/
def coreNodes (F : Frag) (x : String) : List Decl := F.nodes.filter (fun d => d.name.1 = x)

/-- The total of a quantity of the core storage nodes of a node of the schema, given by their numbers. -/
def TotalIs (F : Frag) (volume : Nat → Option ℚ) (x : String) (v : ℚ) : Prop :=
  ∃ vs : List ℚ, ((coreNodes F x).filter (fun d => d.kind = .storage)).map (fun d => volume ((F.nodes.map (·.name)).idxOf d.name)) = vs.map some ∧
    vs.sum = v

/-- The values of the parameters created by nodes are those computed from the other values. -/
def Computed (P : ParamNo) (F : Frag) (σ : Nat → Option ℚ) : Prop :=
  ∀ q ∈ F.params, ∀ v, q.2.2.value σ = some v → σ (P q.1 q.2.1 none) = v

/-- Sizes of the parts of a volume `t` cut at certain shares, from the lowest. -/
def cut (t : ℚ) (shares : List ℚ) : List ℚ := List.zipWith (fun lo hi => t * hi - t * lo) (0 :: shares) (shares ++ [1])

/-- Pour a volume into containers of given sizes, each of which flows over into the next. -/
def pour : ℚ → List ℚ → List ℚ
  | _, [] => []
  | v, s :: ss => min v s :: pour (v - min v s) ss

/-- The largest, the least and the initial volume of a core node. -/
def Decl.MaxIs (σ : Nat → Option ℚ) (d : Decl) (v : ℚ) : Prop := ∃ m, d.data.maxVolume = some m ∧ m.get σ = some v
def Decl.MinIs (σ : Nat → Option ℚ) (d : Decl) (v : ℚ) : Prop := ∃ m, d.data.minVolume = some m ∧ m.get σ = some v

end Verif.Schema
