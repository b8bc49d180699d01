import Verif.Props.SchemaMetrics

/-!
# C68: limits of nodes of the schema

Limits given on a node of the schema bound what the node receives and sends along its edges.
-/

namespace Verif.Schema

open Verif.Topology (Name EdgeDecl)
open Verif.Solver (Metric AtLeast AtMost f64MAX)

section
variable {P : ParamNo} {N : Net} {F : Frag} {C : Core} (h : Built P N F C) {st : Solver.StepState} {f : Nat → ℚ}
  (ha : Solver.Allowed C.model st f) {n : SNode} (hm : n ∈ N.nodes)
include h ha hm

/-- Limits of a core node that is not a storage. -/
theorem core_limits {G : Frag} (hG : n.frag P = .ok G) {d : Decl} (hd : d ∈ G.nodes) (hk : d.kind ≠ .storage) :
    AtLeast st.metric d.data.minFlow 0 (nameFlow F f d.name) ∧ AtMost st.metric d.data.maxFlow f64MAX (nameFlow F f d.name) := by
  have hF := mem_nodes h.compiled hm hG hd
  have := flow_limits h.built ha hF hk
  rwa [← nameFlow_eq (names_nodup h.built) f hF] at this

/-- Limits of a node that is a single source. -/
theorem source_limits {G : Frag} (hG : n.frag P = .ok G) {d : Decl} (hd : d ∈ G.nodes) (hdn : d.name = (n.name, none))
    (hk : d.kind = .input ∨ d.kind = .link) (hE : G.edges = []) (ho : n.outputs = .ok [(n.name, none)])
    (hb1 : ∀ b, n.body ≠ .riverSplit b) (hb2 : ∀ b, n.body ≠ .abstraction b) (hb3 : ∀ b, n.body ≠ .reservoir b) :
    AtLeast st.metric d.data.minFlow 0 (sent N F f n.name) ∧ AtMost st.metric d.data.maxFlow f64MAX (sent N F f n.name) := by
  have hs := sent_eq h hm hG f ho hb1 hb2 hb3 (by simp) (by simp [hE])
  simp only [List.map_cons, List.map_nil, List.sum_cons, List.sum_nil, add_zero] at hs
  have := core_limits h ha hm hG hd (by rcases hk with hk | hk <;> simp [hk])
  have hflow : nameFlow F f d.name = outOf F f d.name := by
    rcases hk with hk | hk
    · exact nameFlow_input h hm hG f hd hk
    · exact nameFlow_link h hm hG f hd hk
  rwa [hflow, hdn, hs] at this

/-- **C68 (input).** What an input sends lies within its limits. -/
theorem C68_input {b : FlowN} (hb : n.body = .input b) :
    AtLeast st.metric b.minFlow 0 (sent N F f n.name) ∧ AtMost st.metric b.maxFlow f64MAX (sent N F f n.name) := by
  obtain ⟨G, hG⟩ := frag_of_mem h.compiled hm
  have hG' := hG
  unfold SNode.frag at hG'
  simp only [hb, Except.ok.injEq, FlowN.inputFrag] at hG'
  exact source_limits h ha hm hG (d := ⟨(n.name, none), .input, flowData b.cost b.minFlow b.maxFlow, none⟩) (by subst hG'; simp) rfl
    (Or.inl rfl) (by subst hG'; rfl) (by unfold SNode.outputs; simp only [hb]) (by simp [hb]) (by simp [hb]) (by simp [hb])

/-- **C68 (output).** What an output receives lies within its limits. -/
theorem C68_output {b : FlowN} (hb : n.body = .output b) :
    AtLeast st.metric b.minFlow 0 (received N F f n.name) ∧ AtMost st.metric b.maxFlow f64MAX (received N F f n.name) := by
  obtain ⟨G, hG⟩ := frag_of_mem h.compiled hm
  have hG' := hG
  unfold SNode.frag at hG'
  simp only [hb, Except.ok.injEq, FlowN.outputFrag] at hG'
  have hd : ⟨(n.name, none), .output, flowData b.cost b.minFlow b.maxFlow, none⟩ ∈ G.nodes := by subst hG'; simp
  have hE : G.edges = [] := by subst hG'; rfl
  have hr := received_eq h hm hG f (S := [(n.name, none)]) (by unfold SNode.inputs; simp only [hb]) (by simp) (by simp [hE])
  simp only [List.map_cons, List.map_nil, List.sum_cons, List.sum_nil, add_zero] at hr
  have := core_limits h ha hm hG hd (by simp)
  rwa [nameFlow_output h hm hG f hd rfl, hr] at this

/-- **C68 (catchment).** A catchment sends exactly its flow. -/
theorem C68_catchment {b : CatchmentN} (hb : n.body = .catchment b) {m : Metric} (hf : b.flow = some m) :
    m.get st.metric = some (sent N F f n.name) := by
  obtain ⟨G, hG⟩ := frag_of_mem h.compiled hm
  have hG' := hG
  unfold SNode.frag at hG'
  simp only [hb, Except.ok.injEq, CatchmentN.frag] at hG'
  obtain ⟨h1, h2⟩ := source_limits h ha hm hG (d := ⟨(n.name, none), .input, flowData b.cost b.flow b.flow, none⟩) (by subst hG'; simp) rfl
    (Or.inl rfl) (by subst hG'; rfl) (by unfold SNode.outputs; simp only [hb]) (by simp [hb]) (by simp [hb]) (by simp [hb])
  simp only [flowData, hf, AtLeast, AtMost] at h1 h2
  obtain ⟨l, hl, hle⟩ := h1
  obtain ⟨u, hu, hge⟩ := h2
  rw [hl, Option.some.injEq] at hu
  subst hu
  rw [hl, le_antisymm hle hge]

/-- **C68 (link).** What a link sends lies within its limits — the upper one only if at most one soft constraint is given (see
`C68_soft_max_refuted` and `C68_max_flow_refuted`). -/
theorem C68_link {b : LinkN} (hb : n.body = .link b) :
    AtLeast st.metric b.minFlow 0 (sent N F f n.name) ∧
    (b.softMin = none ∨ b.softMax = none → AtMost st.metric b.maxFlow f64MAX (sent N F f n.name)) := by
  obtain ⟨G, hG⟩ := frag_of_mem h.compiled hm
  have hG' := hG
  unfold SNode.frag at hG'
  simp only [hb, Except.ok.injEq] at hG'
  have hsum := ((parallel_link P n b hb).balance h hm ha).2
  unfold LinkN.names at hsum
  unfold LinkN.frag at hG'
  cases hlo : b.softMin with
  | none =>
    cases hhi : b.softMax with
    | none =>
      simp only [hlo, hhi] at hG' hsum
      have := source_limits h ha hm hG (d := ⟨(n.name, none), .link, flowData b.cost b.minFlow b.maxFlow, none⟩) (by subst hG'; simp) rfl
        (Or.inr rfl) (by subst hG'; rfl) (by unfold SNode.outputs; simp only [hb, LinkN.names, hlo, hhi]; simp) (by simp [hb]) (by simp [hb]) (by simp [hb])
      exact ⟨this.1, fun _ => this.2⟩
    | some hi =>
      simp only [hlo, hhi] at hG' hsum
      have hA : ⟨(n.name, some "aggregate_node"), [[(n.name, none), (n.name, some "soft_max")]], b.minFlow, b.maxFlow, none⟩ ∈ G.aggs := by
        subst hG'; simp
      have := agg_limits h.built ha (mem_aggs h.compiled hm hG hA)
      simp only [Option.isSome_none, Option.isSome_some, Bool.false_eq_true, if_false, if_true, List.nil_append] at hsum
      simp only [List.map_cons, List.map_nil, List.sum_cons, List.sum_nil, add_zero] at this hsum
      rw [hsum] at this
      exact ⟨this.1, fun _ => this.2⟩
  | some lo =>
    cases hhi : b.softMax with
    | none =>
      simp only [hlo, hhi] at hG' hsum
      have hA : ⟨(n.name, some "aggregate_node"), [[(n.name, none), (n.name, some "soft_min")]], b.minFlow, b.maxFlow, none⟩ ∈ G.aggs := by
        subst hG'; simp
      have := agg_limits h.built ha (mem_aggs h.compiled hm hG hA)
      simp only [Option.isSome_none, Option.isSome_some, Bool.false_eq_true, if_false, if_true, List.append_nil] at hsum
      simp only [List.map_cons, List.map_nil, List.sum_cons, List.sum_nil, add_zero] at this hsum
      rw [hsum] at this
      exact ⟨this.1, fun _ => this.2⟩
    | some hi =>
      simp only [hlo, hhi] at hG' hsum
      have hA : ⟨(n.name, some "aggregate_node"), [[(n.name, none), (n.name, some "soft_min"), (n.name, some "soft_max")]], b.minFlow,
          hi.flow.or b.maxFlow, none⟩ ∈ G.aggs := by subst hG'; simp
      have := agg_limits h.built ha (mem_aggs h.compiled hm hG hA)
      simp only [Option.isSome_some, if_true, List.cons_append, List.nil_append] at hsum
      simp only [List.map_cons, List.map_nil, List.sum_cons, List.sum_nil, add_zero] at this hsum
      rw [hsum] at this
      exact ⟨this.1, fun h => by rcases h with h | h <;> cases h⟩

/-- **C68, refuted (soft maximum).** A link with both soft constraints treats the soft maximum as a hard one, whatever its cost. -/
theorem C68_soft_max_refuted {b : LinkN} (hb : n.body = .link b) {lo hi : Soft} (hlo : b.softMin = some lo) (hhi : b.softMax = some hi)
    {m : Metric} (hf : hi.flow = some m) : ∃ u, m.get st.metric = some u ∧ sent N F f n.name ≤ u := by
  obtain ⟨G, hG⟩ := frag_of_mem h.compiled hm
  have hG' := hG
  unfold SNode.frag at hG'
  simp only [hb, Except.ok.injEq] at hG'
  have hsum := ((parallel_link P n b hb).balance h hm ha).2
  unfold LinkN.names at hsum
  unfold LinkN.frag at hG'
  simp only [hlo, hhi] at hG' hsum
  have hA : ⟨(n.name, some "aggregate_node"), [[(n.name, none), (n.name, some "soft_min"), (n.name, some "soft_max")]], b.minFlow,
      hi.flow.or b.maxFlow, none⟩ ∈ G.aggs := by subst hG'; simp
  have := (agg_limits h.built ha (mem_aggs h.compiled hm hG hA)).2
  simp only [Option.isSome_some, if_true, List.cons_append, List.nil_append] at hsum
  simp only [List.map_cons, List.map_nil, List.sum_cons, List.sum_nil, add_zero] at this hsum
  rw [hsum, hf] at this
  exact this

/-- **C68 (losses).** The limits of a loss link or a treatment works bound what it sends, after the loss. -/
theorem C68_net {lo hi : Option Metric}
    (hb : (∃ b : LossLinkN, n.body = .lossLink b ∧ b.minNetFlow = lo ∧ b.maxNetFlow = hi) ∨
      ∃ b : WorksN, n.body = .works b ∧ b.minFlow = lo ∧ b.maxFlow = hi) :
    AtLeast st.metric lo 0 (sent N F f n.name) ∧ AtMost st.metric hi f64MAX (sent N F f n.name) := by
  obtain ⟨G, hG⟩ := frag_of_mem h.compiled hm
  have hl : n.body.Lossy = true := by rcases hb with ⟨b, hb, _⟩ | ⟨b, hb, _⟩ <;> rw [hb] <;> rfl
  have hs := lossy h ha hm hl
  have hd : ∃ c, ⟨(n.name, some "net"), .link, flowData c lo hi, none⟩ ∈ G.nodes := by
    unfold SNode.frag at hG
    rcases hb with ⟨b, hb, h1, h2⟩ | ⟨b, hb, h1, h2⟩ <;> simp only [hb, Except.ok.injEq] at hG <;> subst hG h1 h2
    · refine ⟨b.netCost, ?_⟩
      unfold LossLinkN.frag
      cases b.loss <;> simp
    · refine ⟨b.cost, ?_⟩
      unfold WorksN.frag
      cases b.loss with
      | none => simp
      | some l => simp only; cases l.load <;> simp
  obtain ⟨c, hd⟩ := hd
  have := core_limits h ha hm hG hd (by simp)
  rw [nameFlow_link h hm hG f hd rfl] at this
  rwa [hs.through.2.1] at this

/-- **C68 (abstraction).** The limits of an abstraction bound what it sends along edges from the abstraction slot. -/
theorem C68_abstraction {b : AbstractionN} (hb : n.body = .abstraction b) :
    AtLeast st.metric b.absMinFlow 0 (sentVia N F f n.name (fun s => s = some .abstraction)) ∧
    AtMost st.metric b.absMaxFlow f64MAX (sentVia N F f n.name (fun s => s = some .abstraction)) := by
  obtain ⟨G, hG⟩ := frag_of_mem h.compiled hm
  obtain ⟨u, hu, hv⟩ := (C66_abstraction h ha hm hb).1
  have hd : ⟨(n.name, some "abstraction"), .link, flowData b.absCost b.absMinFlow b.absMaxFlow, none⟩ ∈ G.nodes := by
    unfold SNode.frag at hG
    simp only [hb] at hG
    unfold AbstractionN.frag at hG
    cases hmrf : b.mrf with
    | some m => simp only [hmrf, Except.ok.injEq] at hG; subst hG; simp
    | none =>
      simp only [hmrf] at hG
      split at hG
      · cases hG
      · simp only [Except.ok.injEq] at hG; subst hG; simp
  have hF := mem_nodes h.compiled hm hG hd
  have := core_limits h ha hm hG hd (by simp)
  rw [nameFlow_link h hm hG f hd rfl] at this
  have hmet : n.metric (some .abstraction) = .ok (.nodeOutFlow (n.name, some "abstraction")) := by unfold SNode.metric; simp [hb]
  rw [hmet, Except.ok.injEq] at hu
  subst hu
  have hval := (find_net h.built hF f).2
  simp only [UMetric.flow] at hv
  simp only at hval
  rw [hval, Option.some.injEq] at hv
  rwa [hv] at this

omit h ha hm in
theorem stepLoop_all (x : String) (ss : List FlowN) (i : Nat) :
    List.Forall₂ (fun s d => d.kind = .link ∧ d.data.minFlow = s.minFlow ∧ d.data.maxFlow = s.maxFlow ∧ d.data.cost = s.cost) ss (stepLoop x ss i) ∧
      (stepLoop x ss i).map (·.name) = (List.range' i ss.length).map (stepName x) := by
  induction ss generalizing i with
  | nil => exact ⟨.nil, rfl⟩
  | cons s ss ih =>
    refine ⟨.cons ⟨rfl, rfl, rfl, rfl⟩ (ih (i + 1)).1, ?_⟩
    simp only [stepLoop, List.map_cons, List.length_cons, List.range'_succ, (ih (i + 1)).2]

/-- **C68 (piecewise link).** What a piecewise link sends is the sum of flows of its steps, each within the limits of the step. -/
theorem C68_pieceLink {b : PieceLinkN} (hb : n.body = .pieceLink b) :
    ∃ qs : List ℚ, sent N F f n.name = qs.sum ∧
      List.Forall₂ (fun s q => AtLeast st.metric s.minFlow 0 q ∧ AtMost st.metric s.maxFlow f64MAX q) b.steps qs := by
  obtain ⟨G, hG⟩ := frag_of_mem h.compiled hm
  have hG' := hG
  unfold SNode.frag at hG'
  simp only [hb, Except.ok.injEq, PieceLinkN.frag] at hG'
  have hsum := ((parallel_pieceLink P n b hb).balance h hm ha).2
  obtain ⟨h1, h2⟩ := stepLoop_all n.name b.steps 0
  refine ⟨(stepLoop n.name b.steps 0).map (fun d => nameFlow F f d.name), ?_, ?_⟩
  · rw [← hsum]
    unfold PieceLinkN.names
    rw [List.range_eq_range', ← h2, List.map_map]
    rfl
  · have hsub : ∀ d ∈ stepLoop n.name b.steps 0, d ∈ G.nodes := by subst hG'; exact fun d hd => hd
    rw [List.forall₂_map_right_iff]
    clear hsum h2 hG'
    generalize stepLoop n.name b.steps 0 = ds at h1 hsub
    generalize b.steps = ss at h1
    induction h1 with
    | nil => exact .nil
    | cons hd _ ih =>
      refine .cons ?_ (ih (fun d hd' => hsub d (by simp [hd'])))
      have := core_limits h ha hm hG (hsub _ List.mem_cons_self) (by rw [hd.1]; simp)
      rwa [hd.2.1, hd.2.2.1] at this

/-- **C68 (turbine).** With a target, the flow of a turbine is at most, at least or exactly the flow the turbine needs for its target, as
configured. -/
theorem C68_turbine {b : TurbineN} (hb : n.body = .turbine b) (ht : b.target.isSome = true) :
    (b.targetType ≠ some .minFlow → ∃ u, st.metric (P n.name "power" none) = some u ∧ sent N F f n.name ≤ u) ∧
    (b.targetType = some .minFlow ∨ b.targetType = some .both → ∃ u, st.metric (P n.name "power" none) = some u ∧ u ≤ sent N F f n.name) := by
  obtain ⟨G, hG⟩ := frag_of_mem h.compiled hm
  have hG' := hG
  unfold SNode.frag at hG'
  simp only [hb, Except.ok.injEq] at hG'
  obtain ⟨t, ht⟩ := Option.isSome_iff_exists.1 ht
  have hE : G.edges = [] := by subst hG'; rfl
  have key : ∀ d ∈ G.nodes, d.name = (n.name, none) → d.kind = .link →
      AtLeast st.metric d.data.minFlow 0 (sent N F f n.name) ∧ AtMost st.metric d.data.maxFlow f64MAX (sent N F f n.name) :=
    fun d hd hdn hk => source_limits h ha hm hG hd hdn (Or.inr hk) hE (by unfold SNode.outputs; simp only [hb]) (by simp [hb]) (by simp [hb])
      (by simp [hb])
  unfold TurbineN.frag at hG'
  simp only [ht] at hG'
  cases htt : b.targetType with
  | none =>
    simp only [htt, Option.getD_none] at hG'
    obtain ⟨_, h2⟩ := key ⟨(n.name, none), .link, flowData b.cost none (some (.dyn (P n.name "power" none))), none⟩ (by subst hG'; simp) rfl rfl
    exact ⟨fun _ => h2, fun h => by rcases h with h | h <;> cases h⟩
  | some tt =>
    simp only [htt, Option.getD_some] at hG'
    cases tt with
    | maxFlow =>
      obtain ⟨_, h2⟩ := key ⟨(n.name, none), .link, flowData b.cost none (some (.dyn (P n.name "power" none))), none⟩ (by subst hG'; simp) rfl rfl
      exact ⟨fun _ => h2, fun h => by rcases h with h | h <;> cases h⟩
    | minFlow =>
      obtain ⟨h1, _⟩ := key ⟨(n.name, none), .link, flowData b.cost (some (.dyn (P n.name "power" none))) none, none⟩ (by subst hG'; simp) rfl rfl
      exact ⟨fun h => absurd rfl h, fun _ => h1⟩
    | both =>
      obtain ⟨h1, h2⟩ := key ⟨(n.name, none), .link, flowData b.cost (some (.dyn (P n.name "power" none))) (some (.dyn (P n.name "power" none))), none⟩
        (by subst hG'; simp) rfl rfl
      exact ⟨fun _ => h2, fun _ => h1⟩

/-- **C68, refuted (river gauge).** A river gauge passes at least as much as the cost given for its bypass. -/
theorem C68_gauge_refuted {b : GaugeN} (hb : n.body = .riverGauge b) {m : Metric} (hc : b.bypassCost = some m) :
    ∃ u, m.get st.metric = some u ∧ u ≤ sent N F f n.name := by
  obtain ⟨G, hG⟩ := frag_of_mem h.compiled hm
  have hG' := hG
  unfold SNode.frag at hG'
  simp only [hb, Except.ok.injEq, GaugeN.frag] at hG'
  have hsum := ((parallel_gauge P n b hb).balance h hm ha).2
  have hd : ⟨(n.name, some "mrf"), .link, flowData b.mrfCost b.bypassCost b.mrf, none⟩ ∈ G.nodes := by subst hG'; simp
  have hd' : ⟨(n.name, some "bypass"), .link, noData, none⟩ ∈ G.nodes := by subst hG'; simp
  obtain ⟨h1, _⟩ := core_limits h ha hm hG hd (by simp)
  obtain ⟨h2, _⟩ := core_limits h ha hm hG hd' (by simp)
  simp only [flowData, noData, hc, AtLeast] at h1 h2
  simp only [List.map_cons, List.map_nil, List.sum_cons, List.sum_nil, add_zero] at hsum
  obtain ⟨u, hu, hle⟩ := h1
  exact ⟨u, hu, by linarith⟩

end

end Verif.Schema
