import Verif.Spec.Rename

/-!
# Renaming in documents with parameters: what is claimed

The nodes and virtual nodes of a document are renamed wherever they are named: in the network, where local parameters are listed, in
metrics of nodes, virtual nodes and edges, and in metrics of indices of nodes.
-/

namespace Verif.Rename

open Verif.Load (SIndex SKind Doc)
open Verif.EndToEnd (Target Document Setting Area Ending)

/-- A metric of indices. -/
def sindex (ρ : String → String) : SIndex → SIndex
  | .node n => .node (ρ n)
  | m => m

/-- A parameter: the metrics of nodes are texts (`Document.refs`), but for those of indices. -/
def skind (ρ : String → String) : SKind → SKind
  | .aggregatedIndex f ms p => .aggregatedIndex f (ms.map (sindex ρ)) p
  | .asymmetric on off => .asymmetric (sindex ρ on) (sindex ρ off)
  | .indexed i ms => .indexed (sindex ρ i) ms
  | .delayIndex m d v => .delayIndex (sindex ρ m) d v
  | .rollingIndex m w v mv f => .rollingIndex (sindex ρ m) w v mv f
  | k => k

/-- A node with its parameters. -/
def docNode (ρ : String → String) (n : Load.SNode) : Load.SNode := ⟨ρ n.name, n.uses, n.params.map fun p => (p.1, skind ρ p.2)⟩

/-- The parameters of a document. -/
def docOf (ρ : String → String) (D : Doc) : Doc where
  nodes := D.nodes.map (docNode ρ)
  virtuals := D.virtuals.map (docNode ρ)
  params := D.params.map fun p => (p.1, skind ρ p.2)
  outputs := D.outputs
  links := D.links

/-- What a metric refers to. -/
def targetOf (ρ : String → String) : Target → Target
  | .node x a => .node (ρ x) a
  | .edge e => .edge ⟨ρ e.src, ρ e.dst, e.srcSlot, e.dstSlot⟩
  | .made u => .made (metric ρ u)
  | .transfer x => .transfer x
  | .virtual x a => .virtual (ρ x) a

/-- A document. -/
def document (ρ : String → String) (P' : Schema.ParamNo) (D : Document) : Document :=
  ⟨net ρ D.net, docOf ρ D.doc, fun r => targetOf ρ (D.refs r), P', D.licences⟩

/-- The nodes and virtual nodes of a document. -/
def owners (D : Document) : List String := D.net.nodes.map (·.name) ++ (D.doc.nodes ++ D.doc.virtuals).map (·.name)

/-- Names of parameters are the same as before, but that those of nodes have the new name of the node. -/
structure SameCodes (ρ : String → String) (D : Document) (E E' : Setting) : Prop where
  locals : ∀ p, ∀ x ∈ owners D, E'.code ⟨p, none, some (ρ x)⟩ = E.code ⟨p, none, some x⟩
  globals : ∀ p, E'.code ⟨p, none, none⟩ = E.code ⟨p, none, none⟩
  series : ∀ s, E.series s ≠ none → ∀ c, E'.code ⟨c, none, some s⟩ = E.code ⟨c, none, some s⟩
  thresholds : ∀ p, E'.code ⟨p, some "threshold", some p⟩ = E.code ⟨p, some "threshold", some p⟩

/-- All else is the same. -/
structure SameSetting (ρ : String → String) (D : Document) (E E' : Setting) : Prop where
  codes : SameCodes ρ D E E'
  rest : E' = { E with code := E'.code }

/-- The network at the end is the same but for the names of its nodes: the same flows, volumes and bounds. -/
structure SameArea (ρ : String → String) (w w' : Area) : Prop where
  names : w'.world.sim = { w.world.sim with net := network ρ w.world.sim.net }
  state : w'.world.state = w.world.state
  bounds : w'.world.bounds = w.world.bounds
  limits : w'.world.limits = w.world.limits
  given : w'.given = w.given

/-- Two runs end in the same way: with an error, or with the same network and the same values in metric sets. -/
inductive SameEnding (ρ : String → String) : Ending → Ending → Prop
  | notCompiled (e e') : SameEnding ρ (.notCompiled e) (.notCompiled e')
  | notBuilt (e e') : SameEnding ρ (.notBuilt e) (.notBuilt e')
  | leftOut : SameEnding ρ .leftOut .leftOut
  | noSolver (e) : SameEnding ρ (.noSolver e) (.noSolver e)
  | notLoaded (e e') : SameEnding ρ (.ran (.notLoaded e)) (.ran (.notLoaded e'))
  | unresolved : SameEnding ρ (.ran .notBuilt) (.ran .notBuilt)
  | failed : SameEnding ρ (.ran .failed) (.ran .failed)
  | done {w w'} (qs) : SameArea ρ w w' → SameEnding ρ (.ran (.done w qs)) (.ran (.done w' qs))

end Verif.Rename
