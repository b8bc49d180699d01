import Verif.Spec.Reorder
import Verif.Spec.Choice

/-!
# A plain link put into an edge: what is claimed

Modellers put a link without limits or costs into an edge, for a name to refer to or to read a flow at.
-/

namespace Verif.Insert

open Verif.Solver Verif.Topology Verif.Reorder
open Verif.State (NodeKind)

/-- The second network has one more node, a link `g` on the way from `u` to `v`; `es` are the other edges. Edges may be in any order. -/
structure Inserted (b b' : Builder) (u v g : Name) (es : List EdgeDecl) : Prop where
  nodes : b'.nodes = b.nodes ++ [⟨g, .link⟩]
  edges : b.edges.Perm (⟨u, v⟩ :: es)
  edges' : b'.edges.Perm (⟨u, g⟩ :: ⟨g, v⟩ :: es)
  storages : b'.vs = b.vs

/-- Limits, costs, groups and licences of all other nodes are the same. The link has no limits and no cost. -/
structure SameElse (b : Builder) (M M' : Model) : Prop where
  data : ∀ i < b.nodes.length, M'.data i = M.data i
  minFlow : (M'.data b.nodes.length).minFlow = none
  maxFlow : (M'.data b.nodes.length).maxFlow = none
  cost : (M'.data b.nodes.length).cost = none
  costAgg : (M'.data b.nodes.length).costAgg = none
  aggs : M'.aggs = M.aggs
  vs : M'.vs = M.vs

/-- The same flows, with that of the edge passing through the link. -/
structure Through (u v g : Name) (es : List EdgeDecl) (φ φ' : EdgeDecl → ℚ) : Prop where
  up : φ' ⟨u, g⟩ = φ ⟨u, v⟩
  down : φ' ⟨g, v⟩ = φ ⟨u, v⟩
  others : ∀ e ∈ es, φ' e = φ e

end Verif.Insert
