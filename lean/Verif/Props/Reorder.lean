import Verif.Lemmas.ReorderChains

/-! # C106: the order of nodes and edges does not matter -/

namespace Verif.Reorder

open Verif.Solver Verif.Topology
open Verif.State (NodeKind)

variable {ρ : Nat → Nat} {b b' : Builder} {M M' : Model} {st st' : StepState}

theorem nodeFlow_same (h : Reordered ρ b b') (φ : EdgeDecl → ℚ) (i k : Nat) (d : NodeDecl) :
    nodeFlow (along b' φ) (nodeOf b' k d) = nodeFlow (along b φ) (nodeOf b i d) := by
  rw [nodeFlow_named, nodeFlow_named, named_same h.edges]

theorem aggFlow_same (h : Reordered ρ b b') (hb : b.build = .ok M.net) (hb' : b'.build = .ok M'.net) (φ : EdgeDecl → ℚ) (a : AggNode) :
    aggFlow M'.net (along b' φ) { a with nodes := a.nodes.map (·.map ρ) } = aggFlow M.net (along b φ) a := by
  unfold aggFlow
  simp only [List.map_map]
  congr 1
  exact List.map_congr_left fun l _ => setFlow_same h hb hb' φ l

theorem vsUse_same (h : Reordered ρ b b') (hb : b.build = .ok M.net) (hb' : b'.build = .ok M'.net) (φ : EdgeDecl → ℚ) (v : VStore) :
    vsUse M'.net (along b' φ) { v with members := v.members.map fun p => (ρ p.1, p.2) } = vsUse M.net (along b φ) v := by
  unfold vsUse
  simp only [List.map_map]
  congr 1
  exact List.map_congr_left fun p _ => by simp only [Function.comp, flowAt_same h hb hb' φ]

theorem factors_eq (a : AggNode) : ({ a with nodes := a.nodes.map (·.map ρ) } : AggNode).factors = a.factors := rfl

theorem map_ok {α β ε : Type} (f : α → β) (e : Except ε α) (y : β) : e.map f = .ok y ↔ ∃ x, e = .ok x ∧ y = f x := by
  cases e with
  | error e => simp [Except.map]
  | ok x => simp [Except.map, eq_comm]

theorem holds_same (h : Reordered ρ b b') (hb : b.build = .ok M.net) (hb' : b'.build = .ok M'.net) (φ : EdgeDecl → ℚ) (p : Pair) :
    (pair ρ p).Holds (flowAt M'.net (along b' φ)) ↔ p.Holds (flowAt M.net (along b φ)) := by
  unfold Pair.Holds pair
  simp only [setFlow_same h hb hb' φ]

theorem edges_length {net : Network} (hb : b.build = .ok net) : net.edges.length = b.edges.length := (C49_topology b net hb).2.1

/-- Statements about the flows of all edges. -/
theorem forall_edges {net : Network} (hb : b.build = .ok net) (φ : EdgeDecl → ℚ) (P : ℚ → Prop) :
    (∀ e < net.edges.length, P (along b φ e)) ↔ ∀ e ∈ b.edges, P (φ e) := by
  rw [edges_length hb]
  constructor
  · intro h e he
    obtain ⟨k, hk⟩ := List.mem_iff_getElem?.1 he
    have := h k (List.getElem?_eq_some_iff.1 hk).1
    simpa only [along, hk, Option.map_some, Option.getD_some] using this
  · intro h k hk
    have := h b.edges[k] (List.getElem_mem hk)
    simpa only [along, List.getElem?_eq_getElem hk, Option.map_some, Option.getD_some] using this

theorem nodeOk_same (h : Reordered ρ b b') (hm : SameModel ρ M M') (hs : SameState ρ st st') (φ : EdgeDecl → ℚ) (i : Nat) (d : NodeDecl) :
    NodeOk M' st' (along b' φ) (nodeOf b' (ρ i) d) ↔ NodeOk M st (along b φ) (nodeOf b i d) := by
  unfold NodeOk
  rw [nodeFlow_same h φ i, hs.metric, hs.days]
  simp only [nodeOf, hm.data, hs.volume]
  exact Iff.rfl

theorem balanced_same (h : Reordered ρ b b') (hb : b.build = .ok M.net) (hb' : b'.build = .ok M'.net) (φ : EdgeDecl → ℚ) :
    Balanced M'.net (along b' φ) ↔ Balanced M.net (along b φ) := by
  unfold Balanced
  rw [forall_nodes (M := M) (M' := M') h hb hb' fun n => n.kind = .link → (n.incoming.map (along b' φ)).sum = (n.outgoing.map (along b' φ)).sum,
    forall_nodes' (M := M) hb fun n => n.kind = .link → (n.incoming.map (along b φ)).sum = (n.outgoing.map (along b φ)).sum]
  simp only [nodeOf, into_sum, from_sum, filter_sum h.edges]

/-- The same flows are allowed. -/
theorem allowed_same (h : Reordered ρ b b') (hm : SameModel ρ M M') (hs : SameState ρ st st') (hb : b.build = .ok M.net)
    (hb' : b'.build = .ok M'.net) (φ : EdgeDecl → ℚ) : Allowed M' st' (along b' φ) ↔ Allowed M st (along b φ) := by
  have e1 : (∀ e < M'.net.edges.length, 0 ≤ along b' φ e) ↔ ∀ e < M.net.edges.length, 0 ≤ along b φ e := by
    rw [forall_edges hb' φ fun q => 0 ≤ q, forall_edges hb φ fun q => 0 ≤ q]
    exact ⟨fun g e he => g e (h.edges.mem_iff.2 he), fun g e he => g e (h.edges.mem_iff.1 he)⟩
  have e2 := balanced_same (M := M) (M' := M') h hb hb' φ
  have e3 : (∀ n ∈ M'.net.nodes, NodeOk M' st' (along b' φ) n) ↔ ∀ n ∈ M.net.nodes, NodeOk M st (along b φ) n := by
    rw [forall_nodes (M := M) (M' := M') h hb hb' fun n => NodeOk M' st' (along b' φ) n,
      forall_nodes' (M := M) hb fun n => NodeOk M st (along b φ) n]
    simp only [nodeOk_same h hm hs φ]
  have e4 : (∀ a ∈ M'.aggs, AtLeast st'.metric a.minFlow 0 (aggFlow M'.net (along b' φ) a) ∧ AtMost st'.metric a.maxFlow f64MAX (aggFlow M'.net (along b' φ) a)) ↔
      ∀ a ∈ M.aggs, AtLeast st.metric a.minFlow 0 (aggFlow M.net (along b φ) a) ∧ AtMost st.metric a.maxFlow f64MAX (aggFlow M.net (along b φ) a) := by
    rw [hm.aggs, hs.metric]
    simp only [List.forall_mem_map, aggFlow_same h hb hb' φ]
  have e5 : (∀ a ∈ M'.aggs, ∀ F, a.factors = some F → ∃ ps, F.pairs a.nodes st'.metric = .ok ps ∧ ∀ p ∈ ps, p.Holds (flowAt M'.net (along b' φ))) ↔
      ∀ a ∈ M.aggs, ∀ F, a.factors = some F → ∃ ps, F.pairs a.nodes st.metric = .ok ps ∧ ∀ p ∈ ps, p.Holds (flowAt M.net (along b φ)) := by
    rw [hm.aggs, hs.metric]
    simp only [List.forall_mem_map, factors_eq, pairs_map, map_ok]
    refine forall_congr' fun a => forall_congr' fun _ => forall_congr' fun F => forall_congr' fun _ => ?_
    constructor
    · rintro ⟨_, ⟨ps, hp, rfl⟩, hh⟩
      exact ⟨ps, hp, fun p hpp => (holds_same h hb hb' φ p).1 (hh _ (List.mem_map_of_mem hpp))⟩
    · rintro ⟨ps, hp, hh⟩
      exact ⟨_, ⟨ps, hp, rfl⟩, List.forall_mem_map.2 fun p hpp => (holds_same h hb hb' φ p).2 (hh p hpp)⟩
  have e6 : (∀ (k : Nat) (v : VStore), M'.vs[k]? = some v → st'.vsActive k = true → ∃ available missing, st'.vsBounds k = some (available, missing) ∧
        st'.days * vsUse M'.net (along b' φ) v ≤ available ∧ -(st'.days * vsUse M'.net (along b' φ) v) ≤ missing) ↔
      ∀ (k : Nat) (v : VStore), M.vs[k]? = some v → st.vsActive k = true → ∃ available missing, st.vsBounds k = some (available, missing) ∧
        st.days * vsUse M.net (along b φ) v ≤ available ∧ -(st.days * vsUse M.net (along b φ) v) ≤ missing := by
    rw [hm.vs, hs.vsActive, hs.vsBounds, hs.days]
    simp only [List.getElem?_map, Option.map_eq_some_iff]
    refine forall_congr' fun k => ⟨fun g v hv => ?_, ?_⟩
    · have := g _ ⟨v, hv, rfl⟩
      simpa only [vsUse_same h hb hb' φ] using this
    · rintro g _ ⟨v, hv, rfl⟩
      simpa only [vsUse_same h hb hb' φ] using g v hv
  exact ⟨fun g => ⟨e1.1 g.nonneg, e2.1 g.balanced, e3.1 g.nodes, e4.1 g.aggs, e5.1 g.factors, e6.1 g.vs⟩,
    fun g => ⟨e1.2 g.nonneg, e2.2 g.balanced, e3.2 g.nodes, e4.2 g.aggs, e5.2 g.factors, e6.2 g.vs⟩⟩

theorem constBounds_same (hm : SameModel ρ M M') (i : Nat) (d : NodeDecl) :
    constBounds (nodeOf b' (ρ i) d) (M'.data (nodeOf b' (ρ i) d).index) = constBounds (nodeOf b i d) (M.data (nodeOf b i d).index) := by
  unfold constBounds
  simp only [nodeOf, hm.data]

theorem limits_same (h : Reordered ρ b b') (hm : SameModel ρ M M') (hs : SameState ρ st st') (hb : b.build = .ok M.net)
    (hb' : b'.build = .ok M'.net) (big negBig : ℚ) (φ : EdgeDecl → ℚ) :
    WithinLimits M' big negBig st' (along b' φ) ↔ WithinLimits M big negBig st (along b φ) := by
  have e1 : (∀ e < M'.net.edges.length, along b' φ e ≤ big) ↔ ∀ e < M.net.edges.length, along b φ e ≤ big := by
    rw [forall_edges hb' φ fun q => q ≤ big, forall_edges hb φ fun q => q ≤ big]
    exact ⟨fun g e he => g e (h.edges.mem_iff.2 he), fun g e he => g e (h.edges.mem_iff.1 he)⟩
  have e3 : (∀ n ∈ M'.net.nodes, constBounds n (M'.data n.index) = none → negBig ≤ nodeFlow (along b' φ) n ∧ nodeFlow (along b' φ) n ≤ big) ↔
      ∀ n ∈ M.net.nodes, constBounds n (M.data n.index) = none → negBig ≤ nodeFlow (along b φ) n ∧ nodeFlow (along b φ) n ≤ big := by
    rw [forall_nodes (M := M) (M' := M') h hb hb' fun n => constBounds n (M'.data n.index) = none → negBig ≤ nodeFlow (along b' φ) n ∧ nodeFlow (along b' φ) n ≤ big,
      forall_nodes' (M := M) hb fun n => constBounds n (M.data n.index) = none → negBig ≤ nodeFlow (along b φ) n ∧ nodeFlow (along b φ) n ≤ big]
    refine forall_congr' fun i => forall_congr' fun d => forall_congr' fun _ => ?_
    rw [constBounds_same (b := b) hm, nodeFlow_same h φ i]
  have e4 : (∀ a ∈ M'.aggs, negBig ≤ aggFlow M'.net (along b' φ) a ∧ aggFlow M'.net (along b' φ) a ≤ big) ↔
      ∀ a ∈ M.aggs, negBig ≤ aggFlow M.net (along b φ) a ∧ aggFlow M.net (along b φ) a ≤ big := by
    rw [hm.aggs]
    simp only [List.forall_mem_map, aggFlow_same h hb hb' φ]
  have e5 : (∀ v ∈ M'.vs, negBig ≤ -vsUse M'.net (along b' φ) v ∧ -vsUse M'.net (along b' φ) v ≤ big) ↔
      ∀ v ∈ M.vs, negBig ≤ -vsUse M.net (along b φ) v ∧ -vsUse M.net (along b φ) v ≤ big := by
    rw [hm.vs]
    simp only [List.forall_mem_map, vsUse_same h hb hb' φ]
  have e6 : (∀ a ∈ M'.aggs, ∀ F cps ps, a.factors = some F → F.constPairs a.nodes = .ok cps → F.pairs a.nodes st'.metric = .ok ps →
        ∀ q ∈ cps.zip ps, (q.1.f0 = none ∨ q.1.f1 = none) → negBig ≤ q.2.rhs ∧ q.2.rhs ≤ big) ↔
      ∀ a ∈ M.aggs, ∀ F cps ps, a.factors = some F → F.constPairs a.nodes = .ok cps → F.pairs a.nodes st.metric = .ok ps →
        ∀ q ∈ cps.zip ps, (q.1.f0 = none ∨ q.1.f1 = none) → negBig ≤ q.2.rhs ∧ q.2.rhs ≤ big := by
    rw [hm.aggs, hs.metric]
    simp only [List.forall_mem_map, factors_eq, pairs_map, constPairs_map, map_ok]
    refine forall_congr' fun a => forall_congr' fun _ => forall_congr' fun F => ⟨fun g cps ps hF hc hp q hq => ?_, ?_⟩
    · refine g _ _ hF ⟨cps, hc, rfl⟩ ⟨ps, hp, rfl⟩ (cpair ρ q.1, pair ρ q.2) ?_
      rw [List.zip_map]
      exact List.mem_map_of_mem hq
    · rintro g _ _ hF ⟨cps, hc, rfl⟩ ⟨ps, hp, rfl⟩ q hq
      rw [List.zip_map] at hq
      obtain ⟨q', hq', rfl⟩ := List.mem_map.1 hq
      exact g cps ps hF hc hp q' hq'
  exact ⟨fun g => ⟨e1.1 g.edges, e3.1 g.nodes, e4.1 g.aggs, e5.1 g.vs, e6.1 g.factors⟩,
    fun g => ⟨e1.2 g.edges, e3.2 g.nodes, e4.2 g.aggs, e5.2 g.vs, e6.2 g.factors⟩⟩

theorem vsCosts_same (hm : SameModel ρ M M') (σ : Nat → Option ℚ) (is : List Nat) (cs : List ℚ) : VsCostsAre M' σ is cs ↔ VsCostsAre M σ is cs := by
  unfold VsCostsAre
  have : (fun (i : Nat) (c : ℚ) => ∃ v, M'.vs[i]? = some v ∧ ValueIs σ v.cost 0 c) =
      fun (i : Nat) (c : ℚ) => ∃ v, M.vs[i]? = some v ∧ ValueIs σ v.cost 0 c := by
    funext i c
    rw [hm.vs]
    simp only [List.getElem?_map, Option.map_eq_some_iff]
    refine propext ⟨?_, ?_⟩
    · rintro ⟨_, ⟨v, hv, rfl⟩, hc⟩
      exact ⟨v, hv, hc⟩
    · rintro ⟨v, hv, hc⟩
      exact ⟨_, ⟨v, hv, rfl⟩, hc⟩
  rw [this]

theorem cost_same (h : Reordered ρ b b') (hm : SameModel ρ M M') (σ : Nat → Option ℚ) (i : Nat) (d : NodeDecl) (c : ℚ) :
    CostIs M' σ (nodeOf b' (ρ i) d) c ↔ CostIs M σ (nodeOf b i d) c := by
  unfold CostIs
  simp only [nodeOf, hm.data, storages_same h, vsCosts_same hm]

theorem used_same (h : Reordered ρ b b') (i k : Nat) (d : NodeDecl) :
    (nodeOf b' k d).incoming ≠ [] ∨ (nodeOf b' k d).outgoing ≠ [] ↔ (nodeOf b i d).incoming ≠ [] ∨ (nodeOf b i d).outgoing ≠ [] := by
  simp only [nodeOf, ne_eq, into_nil, from_nil]
  simp only [h.edges.mem_iff]

theorem defined_same (h : Reordered ρ b b') (hm : SameModel ρ M M') (hs : SameState ρ st st') (hb : b.build = .ok M.net)
    (hb' : b'.build = .ok M'.net) : Defined M' st' ↔ Defined M st := by
  have e1 : (∀ n ∈ M'.net.nodes, n.incoming ≠ [] ∨ n.outgoing ≠ [] → ∃ c, CostIs M' st'.metric n c) ↔
      ∀ n ∈ M.net.nodes, n.incoming ≠ [] ∨ n.outgoing ≠ [] → ∃ c, CostIs M st.metric n c := by
    rw [forall_nodes (M := M) (M' := M') h hb hb' fun n => n.incoming ≠ [] ∨ n.outgoing ≠ [] → ∃ c, CostIs M' st'.metric n c,
      forall_nodes' (M := M) hb fun n => n.incoming ≠ [] ∨ n.outgoing ≠ [] → ∃ c, CostIs M st.metric n c, hs.metric]
    refine forall_congr' fun i => forall_congr' fun d => forall_congr' fun _ => ?_
    rw [used_same h i]
    simp only [cost_same h hm]
  have e2 : (∀ n ∈ M'.net.nodes, n.kind ≠ .storage → (∃ v, ValueIs st'.metric (M'.data n.index).minFlow 0 v) ∧ (∃ v, ValueIs st'.metric (M'.data n.index).maxFlow f64MAX v)) ↔
      ∀ n ∈ M.net.nodes, n.kind ≠ .storage → (∃ v, ValueIs st.metric (M.data n.index).minFlow 0 v) ∧ (∃ v, ValueIs st.metric (M.data n.index).maxFlow f64MAX v) := by
    rw [forall_nodes (M := M) (M' := M') h hb hb' fun n => n.kind ≠ .storage → (∃ v, ValueIs st'.metric (M'.data n.index).minFlow 0 v) ∧ (∃ v, ValueIs st'.metric (M'.data n.index).maxFlow f64MAX v),
      forall_nodes' (M := M) hb fun n => n.kind ≠ .storage → (∃ v, ValueIs st.metric (M.data n.index).minFlow 0 v) ∧ (∃ v, ValueIs st.metric (M.data n.index).maxFlow f64MAX v), hs.metric]
    simp only [nodeOf, hm.data]
  have e3 : (∀ n ∈ M'.net.nodes, n.kind = .storage → (∃ v, st'.volume n.index = some v) ∧
        (∃ v, ValueIs st'.metric (M'.data n.index).minVolume 0 v) ∧ (∃ v, ValueIs st'.metric (M'.data n.index).maxVolume f64MAX v)) ↔
      ∀ n ∈ M.net.nodes, n.kind = .storage → (∃ v, st.volume n.index = some v) ∧
        (∃ v, ValueIs st.metric (M.data n.index).minVolume 0 v) ∧ (∃ v, ValueIs st.metric (M.data n.index).maxVolume f64MAX v) := by
    rw [forall_nodes (M := M) (M' := M') h hb hb' fun n => n.kind = .storage → (∃ v, st'.volume n.index = some v) ∧
        (∃ v, ValueIs st'.metric (M'.data n.index).minVolume 0 v) ∧ (∃ v, ValueIs st'.metric (M'.data n.index).maxVolume f64MAX v),
      forall_nodes' (M := M) hb fun n => n.kind = .storage → (∃ v, st.volume n.index = some v) ∧
        (∃ v, ValueIs st.metric (M.data n.index).minVolume 0 v) ∧ (∃ v, ValueIs st.metric (M.data n.index).maxVolume f64MAX v), hs.metric]
    simp only [nodeOf, hm.data, hs.volume]
  have e4 : (∀ a ∈ M'.aggs, (∃ v, ValueIs st'.metric a.minFlow 0 v) ∧ (∃ v, ValueIs st'.metric a.maxFlow f64MAX v)) ↔
      ∀ a ∈ M.aggs, (∃ v, ValueIs st.metric a.minFlow 0 v) ∧ (∃ v, ValueIs st.metric a.maxFlow f64MAX v) := by
    rw [hm.aggs, hs.metric]
    simp only [List.forall_mem_map]
  have e5 : (∀ a ∈ M'.aggs, ∀ F, a.factors = some F → ∃ ps, F.pairs a.nodes st'.metric = .ok ps ∧ ∀ p ∈ ps, p.f0.isSome ∧ p.f1.isSome) ↔
      ∀ a ∈ M.aggs, ∀ F, a.factors = some F → ∃ ps, F.pairs a.nodes st.metric = .ok ps ∧ ∀ p ∈ ps, p.f0.isSome ∧ p.f1.isSome := by
    rw [hm.aggs, hs.metric]
    simp only [List.forall_mem_map, factors_eq, pairs_map, map_ok]
    refine forall_congr' fun a => forall_congr' fun _ => forall_congr' fun F => forall_congr' fun _ => ?_
    constructor
    · rintro ⟨_, ⟨ps, hp, rfl⟩, hh⟩
      exact ⟨ps, hp, fun p hpp => hh (pair ρ p) (List.mem_map_of_mem hpp)⟩
    · rintro ⟨ps, hp, hh⟩
      exact ⟨_, ⟨ps, hp, rfl⟩, List.forall_mem_map.2 fun p hpp => hh p hpp⟩
  have e6 : (∀ k < M'.vs.length, st'.vsActive k = true → ∃ b, st'.vsBounds k = some b) ↔
      ∀ k < M.vs.length, st.vsActive k = true → ∃ b, st.vsBounds k = some b := by
    rw [hm.vs, hs.vsActive, hs.vsBounds, List.length_map]
  exact ⟨fun g => ⟨e1.1 g.costs, e2.1 g.flows, e3.1 g.volumes, e4.1 g.aggs, e5.1 g.factors, e6.1 g.vs⟩,
    fun g => ⟨e1.2 g.costs, e2.2 g.flows, e3.2 g.volumes, e4.2 g.aggs, e5.2 g.factors, e6.2 g.vs⟩⟩

theorem nodes_sum (hb : b.build = .ok M.net) (g : Name → ℚ) (φ : EdgeDecl → ℚ) :
    totalCost M (fun n => g n.name) (along b φ) = (b.nodes.map fun d => g d.name * named b φ d).sum := by
  unfold totalCost
  congr 1
  refine List.ext_getElem? fun i => ?_
  rw [List.getElem?_map, List.getElem?_map, nodes_at hb]
  cases b.nodes[i]? with
  | none => rfl
  | some d =>
    simp only [Option.map_some, nodeFlow_named]
    rfl

theorem total_same (h : Reordered ρ b b') (hb : b.build = .ok M.net) (hb' : b'.build = .ok M'.net) (g : Name → ℚ) (φ : EdgeDecl → ℚ) :
    totalCost M' (fun n => g n.name) (along b' φ) = totalCost M (fun n => g n.name) (along b φ) := by
  rw [nodes_sum hb, nodes_sum hb', (h.nodes.map fun d => g d.name * named b' φ d).sum_eq]
  simp only [named_same h.edges]

/-- Costs by name. -/
theorem costs_exist (hb : b.build = .ok M.net) (σ : Nat → Option ℚ)
    (hc : ∀ n ∈ M.net.nodes, n.incoming ≠ [] ∨ n.outgoing ≠ [] → ∃ c, CostIs M σ n c) :
    ∃ g : Name → ℚ, ∀ n ∈ M.net.nodes, n.incoming ≠ [] ∨ n.outgoing ≠ [] → CostIs M σ n (g n.name) := by
  classical
  have hv := (C49_build_iff b).1 ⟨_, hb⟩
  refine ⟨fun x => if e : ∃ c, ∃ n ∈ M.net.nodes, n.name = x ∧ CostIs M σ n c then e.choose else 0, fun n hn hu => ?_⟩
  obtain ⟨c, hcn⟩ := hc n hn hu
  have e : ∃ c, ∃ m ∈ M.net.nodes, m.name = n.name ∧ CostIs M σ m c := ⟨c, n, hn, rfl, hcn⟩
  simp only [dif_pos e]
  obtain ⟨m, hm, hmn, hcm⟩ := e.choose_spec
  have : m = n := by
    obtain ⟨i, d, hi, rfl⟩ := (mem_nodes hb _).1 hm
    obtain ⟨j, d', hj, rfl⟩ := (mem_nodes hb _).1 hn
    have hname : d.name = d'.name := hmn
    have h1 : (b.nodes.map (·.name))[i]? = some d.name := by rw [List.getElem?_map, hi]; rfl
    have h2 : (b.nodes.map (·.name))[j]? = some d.name := by rw [List.getElem?_map, hj, hname]; rfl
    obtain rfl : i = j := (List.getElem?_inj (List.getElem?_eq_some_iff.1 h1).1 hv.nodes).1 (h1.trans h2.symm)
    rw [hi] at hj
    rw [Option.some.inj hj]
  exact this ▸ hcm

theorem means_flow {net : Network} (hb : b.build = .ok net) {s : Built} {x : Nat → ℚ} {φ : EdgeDecl → ℚ} :
    Means s b x φ ↔ ∀ e < net.edges.length, s.flow x e = along b φ e := by
  rw [edges_length hb]
  constructor
  · intro h k hk
    rw [h k _ (List.getElem?_eq_getElem hk), along, List.getElem?_eq_getElem hk]
    rfl
  · intro h k e he
    rw [h k (List.getElem?_eq_some_iff.1 he).1, along, he]
    rfl

/-- The same flows are allowed, with groups. -/
theorem allowedChoice_same (h : Reordered ρ b b') (hm : SameModel ρ M M') (hs : SameState ρ st st') (hb : b.build = .ok M.net)
    (hb' : b'.build = .ok M'.net) (hM : Treated M) (φ : EdgeDecl → ℚ) :
    AllowedChoice M' st' (along b' φ) ↔ AllowedChoice M st (along b φ) := by
  have hM' := hM.moved h hm hb hb'
  rw [allowed_relax hM.valid hM.members, allowed_relax hM'.valid hM'.members, choice_same hM.valid h hm hb hb',
    allowed_same (M := M.relax) (M' := M'.relax) h (relax_same hM.valid h hm hb) hs hb hb']

variable {big negBig : ℚ} {s s' s₁ s₁' : Built} {sets sets' : List (List Nat)}

theorem allows_iff (hb : b.build = .ok M.net) (hM : Treated M) (hg : GroupsAre M sets) (hbig : 1000000 ≤ big)
    (hr : Reach M big negBig sets s) (hd : 0 < st.days) (hs : step M s st = .ok s₁) (φ : EdgeDecl → ℚ) :
    Allows s₁ b φ ↔ AllowedChoice M st (along b φ) ∧ WithinLimits M big negBig st (along b φ) := by
  constructor
  · rintro ⟨x, hx, hm⟩
    have hm := (means_flow hb).1 hm
    obtain ⟨h1, h2⟩ := C86_sound M hM.valid hM.members hM.factors sets hg big negBig s s₁ hr st hd hs x hx
    obtain ⟨h3, on, h4⟩ := (allowed_relax hM.valid hM.members).1 h1
    exact ⟨(allowed_relax hM.valid hM.members).2 ⟨h3.agree (Model.relax_valid hM.valid) hm, on, choice_agree (flowAt_agree hM.valid hm) h4⟩,
      h2.agree hM.valid hm⟩
  · rintro ⟨h1, h2⟩
    obtain ⟨x, hx, hf⟩ := C86_represented M hM.valid hM.members hM.factors sets hg big negBig hbig s s₁ hr st hd hs _ h1 h2
    exact ⟨x, hx, (means_flow hb).2 hf⟩

theorem objective_is (hb : b.build = .ok M.net) (hM : Treated M) (hgr : GroupsAre M sets) (hr : Reach M big negBig sets s) (hd : 0 < st.days)
    (hs : step M s st = .ok s₁) {g : Name → ℚ} (hg : ∀ n ∈ M.net.nodes, n.incoming ≠ [] ∨ n.outgoing ≠ [] → CostIs M st.metric n (g n.name))
    {x : Nat → ℚ} {φ : EdgeDecl → ℚ} (hx : s₁.lp.Feasible x) (hm : Means s₁ b x φ) :
    s₁.lp.objective x = totalCost M (fun n => g n.name) (along b φ) := by
  have h1 := (C86_sound M hM.valid hM.members hM.factors sets hgr big negBig s s₁ hr st hd hs x hx).1
  rw [C20_objective M hM.valid big negBig sets s s₁ hr st hs (fun n => g n.name) hg x h1.balanced,
    totalCost_agree hM.valid ((means_flow hb).1 hm)]

/-! ## The property -/

/-- **C106 (building).** A network is built in one order exactly if it is in another. -/
theorem C106_builds (h : Reordered ρ b b') : (∃ net, b'.build = .ok net) ↔ ∃ net, b.build = .ok net := by
  rw [C49_build_iff, C49_build_iff]
  have hc : ∀ d : NodeDecl, Connected d.kind (edgesInto b' d.name) (edgesFrom b' d.name) ↔ Connected d.kind (edgesInto b d.name) (edgesFrom b d.name) := by
    intro d
    unfold Connected
    cases d.kind <;> simp only [ne_eq, into_nil, from_nil, h.edges.mem_iff]
  have hn : ∀ {x : Name}, x ∈ b'.nodes.map (·.name) ↔ x ∈ b.nodes.map (·.name) := (h.nodes.map (·.name)).mem_iff
  constructor
  · intro v
    exact ⟨(h.nodes.map _).nodup_iff.1 v.nodes, h.edges.nodup_iff.1 v.edges,
      fun e he => ⟨hn.1 (v.ends e (h.edges.mem_iff.2 he)).1, hn.1 (v.ends e (h.edges.mem_iff.2 he)).2⟩,
      fun e he => v.noSelf e (h.edges.mem_iff.2 he), h.storages ▸ v.storages,
      fun k hk n hkn => hn.1 (v.members k (h.storages ▸ hk) n hkn), fun d hd => (hc d).1 (v.connected d (h.nodes.mem_iff.2 hd))⟩
  · intro v
    exact ⟨(h.nodes.map _).nodup_iff.2 v.nodes, h.edges.nodup_iff.2 v.edges,
      fun e he => ⟨hn.2 (v.ends e (h.edges.mem_iff.1 he)).1, hn.2 (v.ends e (h.edges.mem_iff.1 he)).2⟩,
      fun e he => v.noSelf e (h.edges.mem_iff.1 he), h.storages.symm ▸ v.storages,
      fun k hk n hkn => hn.2 (v.members k (h.storages ▸ hk) n hkn), fun d hd => (hc d).2 (v.connected d (h.nodes.mem_iff.1 hd))⟩

/-- **C106 (errors).** After any steps before, the program of a step is made in one order exactly if it is in another. -/
theorem C106_step (h : Reordered ρ b b') (hm : SameModel ρ M M') (hs : SameState ρ st st') (hb : b.build = .ok M.net)
    (hb' : b'.build = .ok M'.net) (hM : Treated M) (hg : GroupsAre M sets) (hg' : GroupsAre M' sets')
    (hr : Reach M big negBig sets s) (hr' : Reach M' big negBig sets' s') :
    (∃ s₁, step M' s' st' = .ok s₁) ↔ ∃ s₁, step M s st = .ok s₁ := by
  have hM' := hM.moved h hm hb hb'
  rw [C86_defined M hM.valid hM.members hM.factors sets hg big negBig s hr,
    C86_defined M' hM'.valid hM'.members hM'.factors sets' hg' big negBig s' hr']
  exact defined_same h hm hs hb hb'

/-- **C106 (flows).** The program of a step allows the same flows along the same edges, at the same cost, in whatever order nodes and
edges are. -/
theorem C106_flows (h : Reordered ρ b b') (hm : SameModel ρ M M') (hs : SameState ρ st st') (hb : b.build = .ok M.net)
    (hb' : b'.build = .ok M'.net) (hM : Treated M) (hgr : GroupsAre M sets) (hgr' : GroupsAre M' sets')
    (hbig : 1000000 ≤ big) (hr : Reach M big negBig sets s) (hr' : Reach M' big negBig sets' s')
    (hd : 0 < st.days) (h1 : step M s st = .ok s₁) (h1' : step M' s' st' = .ok s₁') (φ : EdgeDecl → ℚ) (c : ℚ) :
    Costs s₁' b' φ c ↔ Costs s₁ b φ c := by
  have hM' := hM.moved h hm hb hb'
  have hd' : 0 < st'.days := hs.days ▸ hd
  have hdef := (C86_defined M hM.valid hM.members hM.factors sets hgr big negBig s hr st).1 ⟨s₁, h1⟩
  obtain ⟨g, hg⟩ := costs_exist hb st.metric hdef.costs
  have hg' : ∀ n ∈ M'.net.nodes, n.incoming ≠ [] ∨ n.outgoing ≠ [] → CostIs M' st'.metric n (g n.name) := by
    rw [forall_nodes (M := M) (M' := M') h hb hb' fun n => n.incoming ≠ [] ∨ n.outgoing ≠ [] → CostIs M' st'.metric n (g n.name), hs.metric]
    intro i d hi hu
    exact (cost_same h hm st.metric i d _).2 (hg _ ((mem_nodes hb _).2 ⟨i, d, hi, rfl⟩) ((used_same h i _ d).1 hu))
  have ha : Allows s₁' b' φ ↔ Allows s₁ b φ := by
    rw [allows_iff hb hM hgr hbig hr hd h1, allows_iff hb' hM' hgr' hbig hr' hd' h1', allowedChoice_same h hm hs hb hb' hM, limits_same h hm hs hb hb']
  constructor
  · rintro ⟨x, hx, hmx, rfl⟩
    obtain ⟨y, hy, hmy⟩ := ha.1 ⟨x, hx, hmx⟩
    exact ⟨y, hy, hmy, by rw [objective_is hb hM hgr hr hd h1 hg hy hmy, objective_is hb' hM' hgr' hr' hd' h1' hg' hx hmx, total_same h hb hb']⟩
  · rintro ⟨x, hx, hmx, rfl⟩
    obtain ⟨y, hy, hmy⟩ := ha.2 ⟨x, hx, hmx⟩
    exact ⟨y, hy, hmy, by rw [objective_is hb hM hgr hr hd h1 hg hx hmx, objective_is hb' hM' hgr' hr' hd' h1' hg' hy hmy, total_same h hb hb']⟩

/-- Values of columns mean flows along edges. -/
theorem means_exists {net : Network} (hb : b.build = .ok net) (s : Built) (x : Nat → ℚ) : ∃ φ, Means s b x φ := by
  have hv := (C49_build_iff b).1 ⟨_, hb⟩
  refine ⟨fun e => s.flow x (b.edges.idxOf e), fun k e he => ?_⟩
  have hk := (List.getElem?_eq_some_iff.1 he)
  have : b.edges.idxOf e = k := by
    rw [← hk.2]
    exact hv.edges.idxOf_getElem k hk.1
  simp only [this]

/-- **C106 (allocation).** The flows of least cost are the same, in whatever order nodes and edges are. -/
theorem C106_best (h : Reordered ρ b b') (hm : SameModel ρ M M') (hs : SameState ρ st st') (hb : b.build = .ok M.net)
    (hb' : b'.build = .ok M'.net) (hM : Treated M) (hgr : GroupsAre M sets) (hgr' : GroupsAre M' sets')
    (hbig : 1000000 ≤ big) (hr : Reach M big negBig sets s) (hr' : Reach M' big negBig sets' s')
    (hd : 0 < st.days) (h1 : step M s st = .ok s₁) (h1' : step M' s' st' = .ok s₁') (φ : EdgeDecl → ℚ) :
    Best s₁' b' φ ↔ Best s₁ b φ := by
  have key := C106_flows h hm hs hb hb' hM hgr hgr' hbig hr hr' hd h1 h1'
  constructor
  · rintro ⟨x, hx, hmx, hbest⟩
    obtain ⟨y, hy, hmy, hc⟩ := (key φ _).1 ⟨x, hx, hmx, rfl⟩
    refine ⟨y, hy, hmy, fun z hz => ?_⟩
    obtain ⟨ψ, hψ⟩ := means_exists hb s₁ z
    obtain ⟨w, hw, -, hcw⟩ := (key ψ _).2 ⟨z, hz, hψ, rfl⟩
    rw [hc, ← hcw]
    exact hbest w hw
  · rintro ⟨x, hx, hmx, hbest⟩
    obtain ⟨y, hy, hmy, hc⟩ := (key φ _).2 ⟨x, hx, hmx, rfl⟩
    refine ⟨y, hy, hmy, fun z hz => ?_⟩
    obtain ⟨ψ, hψ⟩ := means_exists hb' s₁' z
    obtain ⟨w, hw, -, hcw⟩ := (key ψ _).1 ⟨z, hz, hψ, rfl⟩
    rw [hc, ← hcw]
    exact hbest w hw

/-- Any order of the nodes and edges is such a one. -/
theorem C106_any (b b' : Builder) (hn : b'.nodes.Perm b.nodes) (he : b'.edges.Perm b.edges) (hv : b'.vs = b.vs) : ∃ ρ, Reordered ρ b b' := by
  obtain ⟨ρ, hρ⟩ := exists_moved hn
  exact ⟨ρ, hn, he, hv, hρ⟩

end Verif.Reorder
