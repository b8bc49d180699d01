import Verif.Lemmas.RenameFrag

/-! # Renaming and compiling networks -/

namespace Verif.Rename

open Verif.Topology (Name EdgeDecl TNode Network)
open Verif.Schema

variable {ρ : String → String}

/-- A virtual node with other names. -/
def vnode (ρ : String → String) (v : VNode) : VNode := { Visit.mapVirtual ρ v with name := ρ v.name }

theorem net_eq (N : Net) : net ρ N = ⟨N.nodes.map (snode ρ), N.virtualNodes.map (vnode ρ), N.edges.map (Visit.mapEdge ρ)⟩ := by
  simp only [net, Visit.mapNet, List.map_map]
  rfl

theorem toOption_bind {ε α β : Type} (e : Except ε α) (k : α → Except ε β) :
    (e >>= k).toOption = e.toOption.bind fun a => (k a).toOption := by
  cases e <;> rfl

theorem toOption_pure {ε α : Type} (a : α) : (pure a : Except ε α).toOption = some a := rfl

theorem each_rename {α α' β β' : Type} {f : α → Except Err β} {f' : α' → Except Err β'} {g : α → α'} {h : β → β'}
    (hf : ∀ a, (f' (g a)).toOption = (f a).toOption.map h) (l : List α) :
    (each f' (l.map g)).toOption = (each f l).toOption.map (List.map h) := by
  induction l with
  | nil => rfl
  | cons a l ih =>
    simp only [List.map_cons, each, toOption_bind, toOption_pure, hf, ih]
    cases (f a).toOption <;> simp
    cases (each f l).toOption <;> simp

theorem bump_rename (hρ : Function.Injective ρ) (f : Nat × Nat → Nat × Nat) (k : String) (m : List (String × Nat × Nat)) :
    bump f (ρ k) (m.map fun x => (ρ x.1, x.2)) = (bump f k m).map fun x => (ρ x.1, x.2) := by
  induction m with
  | nil => rfl
  | cons x m ih =>
    obtain ⟨k', c⟩ := x
    simp only [List.map_cons, bump, hρ.eq_iff]
    split_ifs
    · rfl
    · rw [ih]; rfl

theorem counts_rename (hρ : Function.Injective ρ) {α : Type} (name : α → String) (f : Nat × Nat → Nat × Nat) (g : α → α)
    (hg : ∀ a, name (g a) = ρ (name a)) (l : List α) (m : List (String × Nat × Nat)) :
    (l.map g).foldl (fun m n => bump f (name n) m) (m.map fun x => (ρ x.1, x.2)) =
      (l.foldl (fun m n => bump f (name n) m) m).map fun x => (ρ x.1, x.2) := by
  induction l generalizing m with
  | nil => rfl
  | cons a l ih =>
    simp only [List.map_cons, List.foldl_cons, hg, bump_rename hρ, ih]

theorem validate_rename (hρ : Function.Injective ρ) (N : Net) : (net ρ N).validate.toOption = N.validate.toOption := by
  rw [net_eq]
  have h1 := counts_rename hρ SNode.name (fun c => (c.1 + 1, c.2)) (snode ρ) (fun _ => rfl) N.nodes []
  have h2 := counts_rename hρ VNode.name (fun c => (c.1, c.2 + 1)) (vnode ρ) (fun _ => rfl) N.virtualNodes
    (N.nodes.foldl (fun m n => bump (fun c => (c.1 + 1, c.2)) n.name m) [])
  simp only [List.map_nil] at h1
  simp only [Net.validate, h1, h2, List.filter_map, List.isEmpty_map]
  have : ((fun x : String × Nat × Nat => decide (x.2.1 + x.2.2 > 1)) ∘ fun x : String × Nat × Nat => (ρ x.1, x.2)) =
      fun x : String × Nat × Nat => decide (x.2.1 + x.2.2 > 1) := rfl
  rw [this]
  split_ifs <;> rfl

theorem node?_rename (hρ : Function.Injective ρ) (N : Net) (x : String) :
    ((net ρ N).node? (ρ x)).toOption = (N.node? x).toOption.map (snode ρ) := by
  rw [net_eq]
  simp only [Net.node?, List.find?_map]
  have : ((fun n : SNode => decide (n.name = ρ x)) ∘ snode ρ) = fun n => decide (n.name = x) := by
    funext n
    simp [snode, hρ.eq_iff]
  rw [this]
  cases N.nodes.find? (fun n => n.name = x) <;> rfl

theorem pairs_rename (hρ : Function.Injective ρ) (N : Net) (e : SEdge) :
    ((net ρ N).pairs (Visit.mapEdge ρ e)).toOption = (N.pairs e).toOption.map (List.map (edge ρ)) := by
  simp only [Net.pairs, toOption_bind, Visit.mapEdge, node?_rename hρ, toOption_pure]
  cases (N.node? e.src).toOption <;> simp
  rename_i a
  cases (N.node? e.dst).toOption <;> simp
  rename_i b
  simp only [outputConnectors_rename, inputConnectors_rename]
  cases (a.outputConnectors e.srcSlot).toOption <;> simp
  rename_i fs
  cases (b.inputConnectors e.dstSlot).toOption <;> simp
  rename_i ts
  simp only [List.map_flatMap, List.map_map, List.flatMap_map]
  rfl

theorem refNodes_rename (hρ : Function.Injective ρ) (N : Net) (r : Ref) :
    ((net ρ N).refNodes { r with name := ρ r.name }).toOption = (N.refNodes r).toOption.map (List.map (nm ρ)) := by
  simp only [Net.refNodes, toOption_bind, node?_rename hρ]
  cases (N.node? r.name).toOption <;> simp [flowNodes_rename]

theorem storageRefNodes_rename (hρ : Function.Injective ρ) (N : Net) (r : String) :
    ((net ρ N).storageRefNodes (ρ r)).toOption = (N.storageRefNodes r).toOption.map (List.map (nm ρ)) := by
  simp only [Net.storageRefNodes, toOption_bind, node?_rename hρ]
  cases (N.node? r).toOption <;> simp [storageNodes_rename]

theorem virtualFrag_rename (hρ : Function.Injective ρ) (N : Net) (v : VNode) :
    ((net ρ N).virtualFrag (vnode ρ v)).toOption = (N.virtualFrag v).toOption.map (frag ρ) := by
  obtain ⟨x, body, ps⟩ := v
  cases body with
  | aggregated refs hi lo rel =>
    simp only [Net.virtualFrag, vnode, Visit.mapVirtual, toOption_bind, toOption_pure, each_rename (refNodes_rename hρ N)]
    cases (each N.refNodes refs).toOption <;> simp [frag, nm]
  | aggregatedStorage refs =>
    simp only [Net.virtualFrag, vnode, Visit.mapVirtual, toOption_bind, toOption_pure, each_rename (storageRefNodes_rename hρ N)]
    cases (each N.storageRefNodes refs).toOption <;> simp [frag, nm, List.map_flatten]
  | virtualStorage refs factors cost =>
    simp only [Net.virtualFrag, vnode, Visit.mapVirtual, toOption_bind, toOption_pure, each_rename (refNodes_rename hρ N)]
    cases (each N.refNodes refs).toOption <;> simp [frag, nm, List.map_flatten]
  | placeholder => rfl

theorem compile_rename (hρ : Function.Injective ρ) {P P' : ParamNo} (hP : SameNumbers ρ P P') (N : Net) :
    ((net ρ N).compile P').toOption = (N.compile P).toOption.map (frag ρ) := by
  simp only [Net.compile, toOption_bind, toOption_pure, validate_rename hρ]
  have hn : (each (SNode.frag P') (net ρ N).nodes).toOption = (each (SNode.frag P) N.nodes).toOption.map (List.map (frag ρ)) := by
    rw [net_eq]
    exact each_rename (frag_rename hP) N.nodes
  have hv : (each (net ρ N).virtualFrag (net ρ N).virtualNodes).toOption =
      (each N.virtualFrag N.virtualNodes).toOption.map (List.map (frag ρ)) := by
    have h := each_rename (virtualFrag_rename hρ N) N.virtualNodes
    have e : (net ρ N).virtualNodes = N.virtualNodes.map (vnode ρ) := by rw [net_eq]
    rw [e]
    exact h
  have he : (each (net ρ N).pairs (net ρ N).edges).toOption = (each N.pairs N.edges).toOption.map (List.map (List.map (edge ρ))) := by
    have h := each_rename (pairs_rename hρ N) N.edges
    have e : (net ρ N).edges = N.edges.map (Visit.mapEdge ρ) := by rw [net_eq]
    rw [e]
    exact h
  have hl : ((net ρ N).nodes.flatMap fun n => n.params.map fun p => (n.name, p)) =
      (N.nodes.flatMap fun n => n.params.map fun p => (n.name, p)).map fun p => (ρ p.1, p.2) := by
    rw [net_eq]
    simp only [List.flatMap_map, List.map_flatMap, List.map_map]
    rfl
  rw [hn, hv, he, hl]
  cases N.validate.toOption <;> simp
  cases (each (SNode.frag P) N.nodes).toOption <;> simp
  cases (each N.virtualFrag N.virtualNodes).toOption <;> simp
  cases (each N.pairs N.edges).toOption <;> simp
  simp only [frag_add, frag_join]
  simp [frag, List.map_flatten]

end Verif.Rename
