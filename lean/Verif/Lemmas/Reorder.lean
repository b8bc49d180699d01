import Verif.Spec.Reorder
import Verif.Props.Topology
import Verif.Props.Solver
import Mathlib.Algebra.BigOperators.Group.List.Basic
import Mathlib.Data.List.Basic

/-! # The order of nodes and edges -/

namespace Verif.Reorder

open Verif.Solver Verif.Topology
open Verif.State (NodeKind)

theorem along_sum (b : Builder) (φ : EdgeDecl → ℚ) (p : EdgeDecl → Bool) :
    (((b.edges.zipIdx.filter fun q => p q.1).map (·.2)).map (along b φ)).sum = ((b.edges.filter p).map φ).sum := by
  have h1 : ((b.edges.zipIdx.filter fun q => p q.1).map (·.2)).map (along b φ) =
      ((b.edges.zipIdx.filter fun q => p q.1).map (·.1)).map φ := by
    simp only [List.map_map]
    refine List.map_congr_left fun q hq => ?_
    have := List.mem_zipIdx_iff_getElem?.1 (List.mem_of_mem_filter hq)
    simp only [Function.comp, along, this, Option.map_some, Option.getD_some]
  rw [h1]
  congr 2
  have := List.filter_map (f := Prod.fst) (p := p) (l := b.edges.zipIdx)
  rw [List.zipIdx_map_fst] at this
  exact this.symm

/-- The flow of a node by its name. -/
def named (b : Builder) (φ : EdgeDecl → ℚ) (d : NodeDecl) : ℚ :=
  match d.kind with
  | .input => ((b.edges.filter fun e => e.src = d.name).map φ).sum
  | .link => ((b.edges.filter fun e => e.src = d.name).map φ).sum
  | .output => ((b.edges.filter fun e => e.dst = d.name).map φ).sum
  | .storage => ((b.edges.filter fun e => e.dst = d.name).map φ).sum - ((b.edges.filter fun e => e.src = d.name).map φ).sum

/-- The node that is built from a declaration. -/
def nodeOf (b : Builder) (k : Nat) (d : NodeDecl) : TNode := ⟨k, d.name, d.kind, edgesInto b d.name, edgesFrom b d.name, storagesOf b d.name⟩

theorem into_sum (b : Builder) (φ : EdgeDecl → ℚ) (n : Name) :
    ((edgesInto b n).map (along b φ)).sum = ((b.edges.filter fun e => e.dst = n).map φ).sum :=
  along_sum b φ fun e => e.dst = n

theorem from_sum (b : Builder) (φ : EdgeDecl → ℚ) (n : Name) :
    ((edgesFrom b n).map (along b φ)).sum = ((b.edges.filter fun e => e.src = n).map φ).sum :=
  along_sum b φ fun e => e.src = n

theorem nodeFlow_named (b : Builder) (φ : EdgeDecl → ℚ) (k : Nat) (d : NodeDecl) : nodeFlow (along b φ) (nodeOf b k d) = named b φ d := by
  unfold nodeFlow named nodeOf
  cases d.kind <;> simp only [into_sum, from_sum]

theorem filter_sum {b b' : Builder} (h : b'.edges.Perm b.edges) (φ : EdgeDecl → ℚ) (p : EdgeDecl → Bool) :
    ((b'.edges.filter p).map φ).sum = ((b.edges.filter p).map φ).sum := ((h.filter p).map φ).sum_eq

theorem named_same {b b' : Builder} (h : b'.edges.Perm b.edges) (φ : EdgeDecl → ℚ) (d : NodeDecl) : named b' φ d = named b φ d := by
  unfold named
  cases d.kind <;> simp only [filter_sum h]

theorem into_nil (b : Builder) (n : Name) : edgesInto b n = [] ↔ ∀ e ∈ b.edges, e.dst ≠ n := by
  unfold edgesInto
  simp only [List.map_eq_nil_iff, List.filter_eq_nil_iff, decide_eq_true_eq]
  constructor
  · intro h e he
    obtain ⟨k, hk⟩ := List.mem_iff_getElem?.1 he
    exact h (e, k) (List.mem_zipIdx_iff_getElem?.2 hk)
  · intro h q hq
    exact h q.1 (List.mem_iff_getElem?.2 ⟨_, List.mem_zipIdx_iff_getElem?.1 hq⟩)

theorem from_nil (b : Builder) (n : Name) : edgesFrom b n = [] ↔ ∀ e ∈ b.edges, e.src ≠ n := by
  unfold edgesFrom
  simp only [List.map_eq_nil_iff, List.filter_eq_nil_iff, decide_eq_true_eq]
  constructor
  · intro h e he
    obtain ⟨k, hk⟩ := List.mem_iff_getElem?.1 he
    exact h (e, k) (List.mem_zipIdx_iff_getElem?.2 hk)
  · intro h q hq
    exact h q.1 (List.mem_iff_getElem?.2 ⟨_, List.mem_zipIdx_iff_getElem?.1 hq⟩)

variable {ρ : Nat → Nat} {b b' : Builder} {M M' : Model} {st st' : StepState}

theorem nodes_at {net : Network} (hb : b.build = .ok net) (i : Nat) : net.nodes[i]? = (b.nodes[i]?).map (nodeOf b i) := by
  obtain ⟨hl, -, hn, -⟩ := C49_topology b net hb
  cases hd : b.nodes[i]? with
  | some d => exact hn i d hd
  | none =>
    rw [List.getElem?_eq_none_iff] at hd
    rw [Option.map_none, List.getElem?_eq_none_iff]
    omega

theorem mem_nodes {net : Network} (hb : b.build = .ok net) (n : TNode) : n ∈ net.nodes ↔ ∃ i d, b.nodes[i]? = some d ∧ n = nodeOf b i d := by
  rw [List.mem_iff_getElem?]
  simp only [nodes_at hb, Option.map_eq_some_iff]
  exact ⟨fun ⟨i, d, h, e⟩ => ⟨i, d, h, e.symm⟩, fun ⟨i, d, h, e⟩ => ⟨i, d, h, e.symm⟩⟩

theorem storages_same (h : Reordered ρ b b') (n : Name) : storagesOf b' n = storagesOf b n := by
  unfold storagesOf
  rw [h.storages]

/-- Each position of the new order is that of an old one. -/
theorem moved_onto (h : Reordered ρ b b') (hd : (b'.nodes.map (·.name)).Nodup) {k : Nat} {d : NodeDecl} (hk : b'.nodes[k]? = some d) :
    ∃ i, ρ i = k ∧ b.nodes[i]? = some d := by
  obtain ⟨i, hi⟩ := List.mem_iff_getElem?.1 (h.nodes.mem_iff.1 (List.mem_of_getElem? hk))
  refine ⟨i, ?_, hi⟩
  have h2 := (h.moved i).trans hi
  have hnd : b'.nodes.Nodup := hd.of_map _
  exact (List.getElem?_inj (List.getElem?_eq_some_iff.1 h2).1 hnd).1 (h2.trans hk.symm)

/-- Statements about all nodes. -/
theorem forall_nodes (h : Reordered ρ b b') (_ : b.build = .ok M.net) (hb' : b'.build = .ok M'.net) (P : TNode → Prop) :
    (∀ n ∈ M'.net.nodes, P n) ↔ ∀ i d, b.nodes[i]? = some d → P (nodeOf b' (ρ i) d) := by
  simp only [mem_nodes hb']
  constructor
  · intro hp i d hd
    exact hp _ ⟨ρ i, d, (h.moved i).trans hd, rfl⟩
  · rintro hp n ⟨k, d, hk, rfl⟩
    have hv := (C49_build_iff b').1 ⟨_, hb'⟩
    obtain ⟨i, rfl, hi⟩ := moved_onto h hv.nodes hk
    exact hp i d hi

theorem forall_nodes' (hb : b.build = .ok M.net) (P : TNode → Prop) :
    (∀ n ∈ M.net.nodes, P n) ↔ ∀ i d, b.nodes[i]? = some d → P (nodeOf b i d) := by
  simp only [mem_nodes hb]
  exact ⟨fun hp i d hd => hp _ ⟨i, d, hd, rfl⟩, fun hp n ⟨i, d, hd, e⟩ => e ▸ hp i d hd⟩

theorem flowAt_same (h : Reordered ρ b b') (hb : b.build = .ok M.net) (hb' : b'.build = .ok M'.net) (φ : EdgeDecl → ℚ) (i : Nat) :
    flowAt M'.net (along b' φ) (ρ i) = flowAt M.net (along b φ) i := by
  unfold flowAt
  rw [nodes_at hb, nodes_at hb', h.moved]
  cases b.nodes[i]? with
  | none => rfl
  | some d => simp only [Option.map_some, Option.getD_some, nodeFlow_named, named_same h.edges]

theorem setFlow_same (h : Reordered ρ b b') (hb : b.build = .ok M.net) (hb' : b'.build = .ok M'.net) (φ : EdgeDecl → ℚ) (l : List Nat) :
    setFlow (flowAt M'.net (along b' φ)) (l.map ρ) = setFlow (flowAt M.net (along b φ)) l := by
  unfold setFlow
  simp only [List.map_map]
  congr 1
  exact List.map_congr_left fun i _ => flowAt_same h hb hb' φ i

/-! ## Factors -/

def pair (ρ : Nat → Nat) (p : Pair) : Pair := { p with nodes0 := p.nodes0.map ρ, nodes1 := p.nodes1.map ρ }
def cpair (ρ : Nat → Nat) (p : CPair) : CPair := { p with nodes0 := p.nodes0.map ρ, nodes1 := p.nodes1.map ρ }

theorem ratioLoop_map (σ : Nat → Option ℚ) (n0 : List Nat) (f0 : ℚ) (l : List (List Nat × Metric)) :
    ratioLoop σ (n0.map ρ) f0 (l.map fun p => (p.1.map ρ, p.2)) = (ratioLoop σ n0 f0 l).map (·.map (pair ρ)) := by
  induction l with
  | nil => rfl
  | cons a l ih =>
    obtain ⟨n1, f1⟩ := a
    simp only [List.map_cons, ratioLoop]
    cases f1.get σ with
    | none => rfl
    | some v =>
      simp only [ih]
      cases ratioLoop σ n0 f0 l <;> rfl

theorem constRatioLoop_map (n0 : List Nat) (f0 : Option ℚ) (l : List (List Nat × Metric)) :
    constRatioLoop (n0.map ρ) f0 (l.map fun p => (p.1.map ρ, p.2)) = (constRatioLoop n0 f0 l).map (·.map (cpair ρ)) := by
  induction l with
  | nil => rfl
  | cons a l ih =>
    obtain ⟨n1, f1⟩ := a
    simp only [List.map_cons, constRatioLoop]
    cases f1.const? with
    | none =>
      simp only [ih]
      cases constRatioLoop n0 f0 l <;> rfl
    | some v =>
      simp only [ih]
      split_ifs
      · rfl
      · cases constRatioLoop n0 f0 l <;> rfl

theorem zip_map (ns : List (List Nat)) {β : Type} (fs : List β) :
    (ns.map (·.map ρ)).zip fs = (ns.zip fs).map fun p => (p.1.map ρ, p.2) := by
  rw [List.zip_map_left]
  rfl

theorem pairs_map (F : Factors) (nodes : List (List Nat)) (σ : Nat → Option ℚ) :
    F.pairs (nodes.map (·.map ρ)) σ = (F.pairs nodes σ).map (·.map (pair ρ)) := by
  cases F with
  | proportion fs =>
    cases nodes with
    | nil => rfl
    | cons n0 rest =>
      simp only [Factors.pairs, List.map_cons, proportional, List.length_map, zip_map]
      split_ifs
      · rfl
      · cases currentValues σ fs with
        | error e => rfl
        | ok vs =>
          simp only
          split_ifs
          · rfl
          · simp only [Except.map, List.map_map]
            rfl
  | ratio fs =>
    simp only [Factors.pairs, Solver.ratio, List.length_map]
    split_ifs
    · rfl
    · cases nodes with
      | nil => rfl
      | cons n0 ns =>
        cases fs with
        | nil => rfl
        | cons f0 fs =>
          simp only [List.map_cons]
          cases f0.get σ with
          | none => rfl
          | some v =>
            simp only [zip_map, ratioLoop_map]
            split_ifs <;> rfl
  | coefficients fs rhs =>
    simp only [Factors.pairs, Solver.coefficients, List.length_map]
    split_ifs
    · rfl
    · rcases nodes with _ | ⟨n0, _ | ⟨n1, _ | ⟨n2, ns⟩⟩⟩
      · rfl
      · rfl
      · rcases fs with _ | ⟨f0, _ | ⟨f1, _ | ⟨f2, fs⟩⟩⟩
        · rfl
        · rfl
        · simp only [List.map_cons, List.map_nil]
          cases f0.get σ with
          | none => rfl
          | some v =>
            cases f1.get σ with
            | none => rfl
            | some w =>
              cases rhs with
              | none => rfl
              | some r =>
                simp only
                cases r.get σ <;> rfl
        · rfl
      · rfl

theorem constPairs_map (F : Factors) (nodes : List (List Nat)) :
    F.constPairs (nodes.map (·.map ρ)) = (F.constPairs nodes).map (·.map (cpair ρ)) := by
  cases F with
  | proportion fs =>
    cases nodes with
    | nil => rfl
    | cons n0 rest =>
      simp only [Factors.constPairs, List.map_cons, constProportional, List.length_map, zip_map]
      split_ifs
      · rfl
      · cases constValues fs with
        | error e => rfl
        | ok vs =>
          simp only
          split_ifs
          · simp only [Except.map, List.map_map]
            rfl
          · rfl
          · simp only [Except.map, List.map_map]
            rfl
  | ratio fs =>
    simp only [Factors.constPairs, constRatio, List.length_map]
    split_ifs
    · rfl
    · cases nodes with
      | nil => rfl
      | cons n0 ns =>
        cases fs with
        | nil => rfl
        | cons f0 fs =>
          simp only [List.map_cons]
          cases f0.const? with
          | none => simp only [zip_map, constRatioLoop_map]
          | some v =>
            simp only [zip_map, constRatioLoop_map]
            split_ifs <;> rfl
  | coefficients fs rhs =>
    simp only [Factors.constPairs, constCoefficients, List.length_map]
    split_ifs
    · rfl
    · rcases nodes with _ | ⟨n0, _ | ⟨n1, _ | ⟨n2, ns⟩⟩⟩
      · rfl
      · rfl
      · rcases fs with _ | ⟨f0, _ | ⟨f1, _ | ⟨f2, fs⟩⟩⟩ <;> rfl
      · rfl

end Verif.Reorder
