import Verif.Spec.Rename

/-! # Renaming and what nodes are made of -/

namespace Verif.Rename

open Verif.Topology (Name EdgeDecl TNode Network)
open Verif.Schema

variable {ρ : String → String}

theorem nm_inj (h : Function.Injective ρ) : Function.Injective (nm ρ) := by
  rintro ⟨a, s⟩ ⟨b, t⟩ hab
  simp only [nm, Prod.mk.injEq] at hab
  rw [h hab.1, hab.2]

theorem edge_inj (h : Function.Injective ρ) : Function.Injective (edge ρ) := by
  rintro ⟨a, s⟩ ⟨b, t⟩ hab
  simp only [edge, EdgeDecl.mk.injEq] at hab
  rw [nm_inj h hab.1, nm_inj h hab.2]

@[simp] theorem frag_empty : frag ρ {} = {} := rfl

theorem frag_add (A B : Frag) : frag ρ (A.add B) = (frag ρ A).add (frag ρ B) := by
  simp [frag, Frag.add]

theorem frag_join (fs : List Frag) : frag ρ (Frag.join fs) = Frag.join (fs.map (frag ρ)) := by
  induction fs with
  | nil => rfl
  | cons f fs ih =>
    simp only [Frag.join, List.foldr_cons, List.map_cons, frag_add] at ih ⊢
    rw [ih]

/-- A node under its new name. -/
def snode (ρ : String → String) (n : SNode) : SNode := { n with name := ρ n.name }

theorem splitLoop_rename (nm : String) (ss : List Split) (i : Nat) :
    frag ρ (splitLoop nm ss i) = splitLoop (ρ nm) ss i := by
  induction ss generalizing i with
  | nil => rfl
  | cons s ss ih =>
    rw [splitLoop, frag_add, ih, splitLoop]
    rfl

theorem stepLoop_rename (nm' : String) (ss : List FlowN) (i : Nat) :
    (stepLoop nm' ss i).map (fun d : Decl => { d with name := nm ρ d.name }) = stepLoop (ρ nm') ss i := by
  induction ss generalizing i with
  | nil => rfl
  | cons s ss ih =>
    rw [stepLoop, List.map_cons, ih, stepLoop]
    rfl

variable {P P' : ParamNo}

theorem pieceFrag_rename (hP : SameNumbers ρ P P') (x : String) (n : PieceStoreN) (i : Nat) (u l c : Option Solver.Metric)
    (prior : List Solver.Metric) : frag ρ (pieceFrag P x n i u l c prior) = pieceFrag P' (ρ x) n i u l c prior := by
  unfold pieceFrag pieceMin pieceMax piecePrior
  simp only [hP x]
  by_cases hi : i = 0
  · cases n.minVolume <;> simp [frag, hi, storeName, nm, pdef]
  · cases n.minVolume <;> simp [frag, hi, storeName, nm, pdef, edge]

theorem pieceLoop_rename (hP : SameNumbers ρ P P') (x : String) (n : PieceStoreN) (ss : List Piece) (i : Nat)
    (l : Option Solver.Metric) (prior : List Solver.Metric) :
    frag ρ (pieceLoop P x n ss i l prior) = pieceLoop P' (ρ x) n ss i l prior := by
  induction ss generalizing i l prior with
  | nil => exact pieceFrag_rename hP x n i none l n.cost prior
  | cons s ss ih =>
    rw [pieceLoop, frag_add, ih, pieceFrag_rename hP, pieceLoop]
    simp only [pieceMax, hP x]

/-- The fragment of a node is renamed with the node, and is refused if the node's is. -/
theorem frag_rename (hP : SameNumbers ρ P P') (n : SNode) :
    ((snode ρ n).frag P').toOption = (n.frag P).toOption.map (frag ρ) := by
  obtain ⟨x, body, ps⟩ := n
  cases body with
  | input b => rfl
  | output b => rfl
  | storage b => rfl
  | catchment b => rfl
  | riverGauge b => rfl
  | placeholder => rfl
  | link b =>
    obtain ⟨_, _, _, _ | lo, _ | hi⟩ := b <;> rfl
  | lossLink b =>
    obtain ⟨_ | l, _, _, _⟩ := b
    · rfl
    · rfl
  | river b =>
    obtain ⟨_ | l, _ | r⟩ := b
    · rfl
    · cases r <;> simp [SNode.frag, snode, RiverN.frag, RiverN.routingFrag, frag, nm, pdef, metric, hP x, Except.toOption]
    · simp only [SNode.frag, snode, RiverN.frag, RiverN.lossFrag]
      cases l.load <;> rfl
    · simp only [SNode.frag, snode, RiverN.frag, RiverN.lossFrag]
      cases l.load <;> cases r <;>
        simp [RiverN.routingFrag, frag, nm, pdef, metric, edge, hP x, Except.toOption]
  | riverSplit b =>
    simp only [SNode.frag, snode, SplitN.frag, Except.toOption, Option.map_some, frag_add, splitLoop_rename]
    rfl
  | works b =>
    obtain ⟨_ | l, _, _, _, _, _⟩ := b
    · rfl
    · simp only [SNode.frag, snode, WorksN.frag]
      cases l.load <;> rfl
  | pieceLink b =>
    simp only [SNode.frag, snode, PieceLinkN.frag, Except.toOption, Option.map_some, frag, stepLoop_rename]
    rfl
  | pieceStore b =>
    simp only [SNode.frag, snode, PieceStoreN.frag, Except.toOption, Option.map_some, frag_add, pieceLoop_rename hP]
    simp [frag, nm, storeName, Function.comp_def]
    rfl
  | delay b => simp [SNode.frag, snode, DelayN.frag, frag, nm, pdef, metric, hP x, Except.toOption]
  | turbine b =>
    obtain ⟨c, _ | t, tt, e⟩ := b
    · simp [SNode.frag, snode, TurbineN.frag, frag, nm, pdef, metric, Except.toOption]
    · rcases tt with _ | _ | _ | _ <;>
        simp [SNode.frag, snode, TurbineN.frag, frag, nm, pdef, metric, hP x, Except.toOption]
  | reservoir b =>
    obtain ⟨st, comp, spill, con, area, rain, evap, leak⟩ := b
    have hA : ∀ (b : Bathymetry) (m : Bool), areaStorage (ρ x) b m = metric ρ (areaStorage x b m) := by
      rintro ⟨_, _ | _⟩ (_ | _) <;> rfl
    have hR : ∀ (b : Bathymetry) (r : Rain), frag ρ (ReservoirN.rainFrag P x b r) = ReservoirN.rainFrag P' (ρ x) b r := by
      intro b r
      simp [ReservoirN.rainFrag, frag, nm, pdef, edge, hP x, hA]
    have hE : ∀ (b : Bathymetry) (r : Evap), frag ρ (ReservoirN.evapFrag P x b r) = ReservoirN.evapFrag P' (ρ x) b r := by
      intro b r
      simp [ReservoirN.evapFrag, frag, nm, pdef, edge, hP x, hA]
    have hL : ∀ (r : Leak), frag ρ (ReservoirN.leakFrag x r) = ReservoirN.leakFrag (ρ x) r := fun _ => rfl
    have hS : frag ρ (StorageN.frag x st) = StorageN.frag (ρ x) st := rfl
    have hV : frag ρ (ReservoirN.releaseFrag x ⟨st, comp, spill, con, area, rain, evap, leak⟩) =
        ReservoirN.releaseFrag (ρ x) ⟨st, comp, spill, con, area, rain, evap, leak⟩ := by
      unfold ReservoirN.releaseFrag
      simp only [frag_add]
      rcases comp with _ | c <;> rcases spill with _ | _ | _ <;> rcases con with _ | _ | _ <;> rfl
    simp only [SNode.frag, snode, ReservoirN.frag]
    rcases area with _ | b <;> rcases rain with _ | r <;> rcases evap with _ | e <;> rcases leak with _ | l <;>
      simp [Except.toOption, frag_add, hR, hE, hL, hS, hV]
  | abstraction b =>
    obtain ⟨_ | m, _ | c, _, _, _⟩ := b <;> rfl

/-! ## Connectors -/

theorem map_split (x : String) (k : Nat) :
    (List.range k).map (splitName (ρ x)) = ((List.range k).map (splitName x)).map (nm ρ) := by
  simp only [List.map_map]
  rfl

theorem map_step (x : String) (k : Nat) :
    (List.range k).map (stepName (ρ x)) = ((List.range k).map (stepName x)).map (nm ρ) := by
  simp only [List.map_map]
  rfl

theorem map_store (x : String) (k : Nat) :
    (List.range k).map (storeName (ρ x)) = ((List.range k).map (storeName x)).map (nm ρ) := by
  simp only [List.map_map]
  rfl

theorem link_names (b : LinkN) (x : String) : b.names (ρ x) = (b.names x).map (nm ρ) := by
  obtain ⟨_, _, _, _ | lo, _ | hi⟩ := b <;> rfl

theorem split_names (b : SplitN) (x : String) : b.names (ρ x) = (b.names x).map (nm ρ) := by
  simp only [SplitN.names, map_split, List.map_append]
  rfl

theorem gross_names (x : String) (l : Option Loss) : grossNames (ρ x) l = (grossNames x l).map (nm ρ) := by
  cases l <;> rfl

theorem piece_names (b : PieceLinkN) (x : String) : b.names (ρ x) = (b.names x).map (nm ρ) := map_step x _

theorem inputs_rename (n : SNode) : (snode ρ n).inputs.toOption = n.inputs.toOption.map (List.map (nm ρ)) := by
  obtain ⟨x, body, ps⟩ := n
  cases body with
  | link b => simp [SNode.inputs, snode, Except.toOption, link_names]
  | lossLink b => simp [SNode.inputs, snode, Except.toOption, gross_names]
  | works b => simp [SNode.inputs, snode, Except.toOption, gross_names]
  | river b => obtain ⟨_ | l, _ | r⟩ := b <;> rfl
  | riverSplit b => simp [SNode.inputs, snode, Except.toOption, split_names]
  | pieceLink b => simp [SNode.inputs, snode, Except.toOption, piece_names]
  | pieceStore b =>
    simp only [SNode.inputs, snode, Except.toOption, Option.map_some, map_store]
  | abstraction b => obtain ⟨_ | m, _, _, _, _⟩ := b <;> rfl
  | _ => rfl

theorem inputConnectors_rename (n : SNode) (s : Option Slot) :
    ((snode ρ n).inputConnectors s).toOption = (n.inputConnectors s).toOption.map (List.map (nm ρ)) := by
  have h := inputs_rename (ρ := ρ) n
  obtain ⟨x, body, ps⟩ := n
  cases s <;> cases body <;> first | exact h | rfl

theorem outputs_rename (n : SNode) : (snode ρ n).outputs.toOption = n.outputs.toOption.map (List.map (nm ρ)) := by
  obtain ⟨x, body, ps⟩ := n
  cases body with
  | link b => simp [SNode.outputs, snode, Except.toOption, link_names]
  | river b => obtain ⟨_ | l, _ | r⟩ := b <;> rfl
  | pieceLink b => simp [SNode.outputs, snode, Except.toOption, piece_names]
  | pieceStore b =>
    simp only [SNode.outputs, snode, Except.toOption, Option.map_some, map_store]
  | _ => rfl

theorem outputConnectors_rename (n : SNode) (s : Option Slot) :
    ((snode ρ n).outputConnectors s).toOption = (n.outputConnectors s).toOption.map (List.map (nm ρ)) := by
  have h := outputs_rename (ρ := ρ) n
  obtain ⟨x, body, ps⟩ := n
  cases body with
  | riverSplit b =>
    rcases s with _ | _ | _ | _ | _ | _ | i | u <;>
      simp only [SNode.outputConnectors, snode, split_names, Except.toOption, Option.map_some, Option.map_none]
    · split_ifs <;> rfl
    · cases b.splits.findIdx? (fun x => x.slotName = some u) <;> rfl
  | abstraction b =>
    obtain ⟨_ | m, _, _, _, _⟩ := b <;> rcases s with _ | _ | _ | _ | _ | _ | i | u <;> rfl
  | reservoir b =>
    rcases s with _ | _ | _ | _ | _ | _ | i | u <;> try rfl
    simp only [SNode.outputConnectors, snode]
    split_ifs <;> rfl
  | placeholder => rfl
  | _ => cases s <;> first | exact h | rfl

/-! ## Constraints and metrics -/

theorem flowNodes_rename (n : SNode) (c : Option Comp) :
    ((snode ρ n).flowNodes c).toOption = (n.flowNodes c).toOption.map (List.map (nm ρ)) := by
  obtain ⟨x, body, ps⟩ := n
  cases body with
  | link b => rcases c with _ | _ | _ | _ | _ | _ | _ | _ <;> simp [SNode.flowNodes, snode, Except.toOption, link_names]
  | riverSplit b => rcases c with _ | _ | _ | _ | _ | _ | _ | _ <;> simp [SNode.flowNodes, snode, Except.toOption, split_names]
  | pieceLink b => rcases c with _ | _ | _ | _ | _ | _ | _ | _ <;> simp [SNode.flowNodes, snode, Except.toOption, piece_names]
  | lossLink b => obtain ⟨_ | l, _, _, _⟩ := b <;> rcases c with _ | _ | _ | _ | _ | _ | _ | _ <;> rfl
  | works b => obtain ⟨_ | l, _, _, _, _, _⟩ := b <;> rcases c with _ | _ | _ | _ | _ | _ | _ | _ <;> rfl
  | river b => obtain ⟨_ | l, _ | r⟩ := b <;> rcases c with _ | _ | _ | _ | _ | _ | _ | _ <;> rfl
  | abstraction b => obtain ⟨_ | m, _, _, _, _⟩ := b <;> rcases c with _ | _ | _ | _ | _ | _ | _ | _ <;> rfl
  | _ => rcases c with _ | _ | _ | _ | _ | _ | _ | _ <;> rfl

theorem storageNodes_rename (n : SNode) :
    (snode ρ n).storageNodes.toOption = n.storageNodes.toOption.map (List.map (nm ρ)) := by
  obtain ⟨x, body, ps⟩ := n
  cases body with
  | pieceStore b => simp only [SNode.storageNodes, snode, Except.toOption, Option.map_some, map_store]
  | _ => rfl

theorem toOption_map {ε α β : Type} (f : α → β) (e : Except ε α) : (e.map f).toOption = e.toOption.map f := by
  cases e <;> rfl

theorem metric_rename (n : SNode) (a : Option Attr) :
    ((snode ρ n).metric a).toOption = (n.metric a).toOption.map (metric ρ) := by
  have hf := fun c => flowNodes_rename (ρ := ρ) n c
  obtain ⟨x, body, ps⟩ := n
  cases body with
  | link b =>
    rcases a with _ | _ | _ | _ | _ | _ | _ | _ | _ | _ | _ | _ | _ <;>
      simp [SNode.metric, snode, Except.toOption, link_names, metric]
  | riverSplit b =>
    rcases a with _ | _ | _ | _ | _ | _ | _ | _ | _ | _ | _ | _ | _ <;>
      simp [SNode.metric, snode, Except.toOption, split_names, metric]
  | pieceLink b =>
    rcases a with _ | _ | _ | _ | _ | _ | _ | _ | _ | _ | _ | _ | _ <;>
      simp [SNode.metric, snode, Except.toOption, piece_names, metric]
  | lossLink b =>
    obtain ⟨_ | l, _, _, _⟩ := b <;> rcases a with _ | _ | _ | _ | _ | _ | _ | _ | _ | _ | _ | _ | _ <;> rfl
  | works b =>
    obtain ⟨_ | l, _, _, _, _, _⟩ := b <;> rcases a with _ | _ | _ | _ | _ | _ | _ | _ | _ | _ | _ | _ | _ <;> rfl
  | river b =>
    obtain ⟨_ | l, _ | r⟩ := b <;> rcases a with _ | _ | _ | _ | _ | _ | _ | _ | _ | _ | _ | _ | _ <;> rfl
  | abstraction b =>
    obtain ⟨_ | m, _, _, _, _⟩ := b <;> rcases a with _ | _ | _ | _ | _ | _ | _ | _ | _ | _ | _ | _ | _ <;> rfl
  | reservoir b =>
    obtain ⟨st, _ | comp, spill, con, _ | area, _ | rain, evap, leak⟩ := b <;>
      rcases a with _ | _ | _ | _ | _ | _ | _ | _ | _ | _ | _ | _ | _ <;> rfl
  | _ => rcases a with _ | _ | _ | _ | _ | _ | _ | _ | _ | _ | _ | _ | _ <;> rfl

end Verif.Rename
