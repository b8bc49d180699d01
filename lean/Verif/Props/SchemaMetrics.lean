import Verif.Props.Schema

/-!
# C66: what the attributes of nodes and edges report

The value of an attribute is compared with the flows along the edges of the schema.
-/

namespace Verif.Schema

open Verif.State (NodeKind)
open Verif.Topology (Name EdgeDecl TNode)
open Verif.Solver (Metric NodeData Relationship Factors)

section
variable {P : ParamNo} {N : Net} {F : Frag} {C : Core} (h : Built P N F C) {st : Solver.StepState} {f : Nat → ℚ}
  (ha : Solver.Allowed C.model st f) {n : SNode} (hm : n ∈ N.nodes)
include h ha hm

/-- Inflow of the lanes of a node. -/
theorem lanes_in (hb : n.body.Through = true) {S : List Name} (hS : n.lanes = S) {m : Except Err UMetric} (hmet : m = .ok (.multiNodeInFlow S)) :
    Reports F C f m (received N F f n.name) := by
  obtain ⟨h1, _, _, h4⟩ := (parallel_of hb).sums h hm ha
  rw [hS] at h1 h4
  rw [← h1]
  exact reports_in h hmet f h4

/-- Outflow of the lanes of a node. -/
theorem lanes_out (hb : n.body.Through = true) {S : List Name} (hS : n.lanes = S) {m : Except Err UMetric} (hmet : m = .ok (.multiNodeOutFlow S)) :
    Reports F C f m (sent N F f n.name) := by
  obtain ⟨_, h2, _, h4⟩ := (parallel_of hb).sums h hm ha
  rw [hS] at h2 h4
  rw [← h2]
  exact reports_out h hmet f h4

omit ha in
theorem source_out {d : Decl} {G : Frag} (hG : n.frag P = .ok G) (hd : d ∈ G.nodes) (hdn : d.name = (n.name, none)) (hE : G.edges = [])
    (ho : n.outputs = .ok [(n.name, none)]) (hb : ∀ b, n.body ≠ .riverSplit b) (hb' : ∀ b, n.body ≠ .abstraction b)
    (hb'' : ∀ b, n.body ≠ .reservoir b) {m : Except Err UMetric} (hmet : m = .ok (.nodeOutFlow (n.name, none))) :
    Reports F C f m (sent N F f n.name) := by
  have hs := sent_eq h hm hG f ho hb hb' hb'' (by simp) (by simp [hE])
  simp only [List.map_cons, List.map_nil, List.sum_cons, List.sum_nil, add_zero] at hs
  rw [← hs]
  exact reports_out1 h hmet f ⟨d, mem_nodes h.compiled hm hG hd, hdn⟩

/-- **C66 (inflow).** Whatever node has an inflow reports as inflow what it receives along its edges. -/
theorem C66_inflow {u : UMetric} (hu : n.metric (some .inflow) = .ok u) : Reports F C f (n.metric (some .inflow)) (received N F f n.name) := by
  have hmulti : ∀ {S : List Name} {b : Body}, n.body = b → b.Through = true → n.lanes = S → n.metric (some .inflow) = .ok (.multiNodeInFlow S) →
      Reports F C f (n.metric (some .inflow)) (received N F f n.name) := by
    intro S b hb ht hS hmet
    exact lanes_in h ha hm (hb ▸ ht) hS hmet
  have hloss : n.body.Lossy = true → n.metric (some .inflow) =
      .ok (if n.body.loss.isSome then .multiNodeInFlow [(n.name, some "net"), (n.name, some "loss")] else .nodeInFlow (n.name, some "net")) →
      Reports F C f (n.metric (some .inflow)) (received N F f n.name) := by
    intro hl hmet
    have hs := lossy h ha hm hl
    rw [← hs.received]
    cases hi : n.body.loss.isSome with
    | true =>
      simp only [hi, if_true] at hmet ⊢
      have := reports_in h hmet f (by
        intro c hc
        simp only [List.mem_cons, List.not_mem_nil, or_false] at hc
        rcases hc with rfl | rfl
        · exact hs.exists_net
        · exact hs.exists_loss hi)
      simpa using this
    | false =>
      simp only [hi, Bool.false_eq_true, if_false] at hmet ⊢
      exact reports_in1 h hmet f hs.exists_net
  cases hb : n.body with
  | link b =>
    rw [C65_through h ha hm (by rw [hb]; rfl)]
    exact lanes_out h ha hm (by rw [hb]; rfl) (S := b.names n.name) (by unfold SNode.lanes; simp only [hb]) (by unfold SNode.metric; simp [hb])
  | riverGauge b =>
    exact hmulti hb rfl (S := [(n.name, some "mrf"), (n.name, some "bypass")]) (by unfold SNode.lanes; simp only [hb]) (by unfold SNode.metric; simp [hb])
  | riverSplit b => exact hmulti hb rfl (S := b.names n.name) (by unfold SNode.lanes; simp only [hb]) (by unfold SNode.metric; simp [hb])
  | pieceLink b => exact hmulti hb rfl (S := b.names n.name) (by unfold SNode.lanes; simp only [hb]) (by unfold SNode.metric; simp [hb])
  | abstraction b =>
    exact hmulti hb rfl (S := (if b.mrf.isSome then [(n.name, some "mrf")] else []) ++ [(n.name, some "bypass"), (n.name, some "abstraction")])
      (by unfold SNode.lanes; simp only [hb]) (by unfold SNode.metric SNode.flowNodes; simp [hb, Except.map])
  | turbine b =>
    have ht : n.body.Through = true := by rw [hb]; rfl
    obtain ⟨h1, _, _, h4⟩ := (parallel_of (P := P) ht).sums h hm ha
    have hl : n.lanes = [(n.name, none)] := by unfold SNode.lanes; simp only [hb]
    rw [hl] at h1 h4
    simp only [List.map_cons, List.map_nil, List.sum_cons, List.sum_nil, add_zero] at h1
    rw [← h1]
    exact reports_in1 h (by unfold SNode.metric; simp [hb]) f (h4 _ (by simp))
  | output b =>
    obtain ⟨G, hG⟩ := frag_of_mem h.compiled hm
    have hG' := hG
    unfold SNode.frag at hG'
    simp only [hb, Except.ok.injEq, FlowN.outputFrag] at hG'
    have hE : G.edges = [] := by subst hG'; rfl
    have hr := received_eq h hm hG f (S := [(n.name, none)]) (by unfold SNode.inputs; simp only [hb]) (by simp) (by simp [hE])
    simp only [List.map_cons, List.map_nil, List.sum_cons, List.sum_nil, add_zero] at hr
    rw [← hr]
    have hd : ∃ d ∈ G.nodes, d.name = (n.name, none) := by subst hG'; simp
    obtain ⟨d, hd, hdn⟩ := hd
    exact reports_in1 h (by unfold SNode.metric; simp [hb]) f ⟨d, mem_nodes h.compiled hm hG hd, hdn⟩
  | lossLink b => exact hloss (by rw [hb]; rfl) (by unfold SNode.metric; simp [hb, Body.loss])
  | works b => exact hloss (by rw [hb]; rfl) (by unfold SNode.metric; simp [hb, Body.loss])
  | delay b =>
    have hr := routed h ha hm (by rw [hb]; rfl)
    rw [← hr.inflow.1]
    exact reports_in1 h (by unfold SNode.metric; simp [hb]) f hr.present.1
  | river b =>
    cases hrt : b.routing with
    | some r =>
      have hr := routed h ha hm (by rw [hb]; simp [Body.Routed, hrt])
      rw [← hr.inflow.1]
      have := reports_in h (m := n.metric (some .inflow)) (S := [(n.name, some "inflow")])
        (by unfold SNode.metric SNode.flowNodes; simp only [hb, hrt]; cases b.loss <;> rfl) f (by simpa using hr.present.1)
      simpa using this
    | none =>
      have hs := lossy h ha hm (by rw [hb]; simp [Body.Lossy, hrt])
      rw [← hs.received]
      have hbl : n.body.loss = b.loss := by rw [hb]; rfl
      rw [hbl]
      cases hi : b.loss with
      | some l =>
        have := reports_in h (m := n.metric (some .inflow)) (S := [(n.name, some "net"), (n.name, some "loss")])
          (by unfold SNode.metric SNode.flowNodes; simp only [hb, hrt, hi]; rfl) f (by
          intro c hc
          simp only [List.mem_cons, List.not_mem_nil, or_false] at hc
          rcases hc with rfl | rfl
          · exact hs.exists_net
          · exact hs.exists_loss (by rw [hbl, hi]; rfl))
        simpa using this
      | none =>
        have := reports_in h (m := n.metric (some .inflow)) (S := [(n.name, some "net")])
          (by unfold SNode.metric SNode.flowNodes; simp only [hb, hrt, hi]; rfl) f (by simpa using hs.exists_net)
        simpa using this
  | input b => unfold SNode.metric at hu; simp [hb] at hu
  | catchment b => unfold SNode.metric at hu; simp [hb] at hu
  | storage b => unfold SNode.metric at hu; simp [hb, storageMetric] at hu
  | pieceStore b => unfold SNode.metric at hu; simp [hb] at hu
  | reservoir b => unfold SNode.metric at hu; simp [hb, storageMetric] at hu
  | placeholder => unfold SNode.metric at hu; simp [hb] at hu

/-- **C66 (outflow).** Whatever node has an outflow reports as outflow what it sends along its edges — but for abstractions, which report
what they send to the river (`C66_abstraction`), and for rivers with both routing and a loss (`C66_river_outflow_refuted`). -/
theorem C66_outflow {u : UMetric} (hu : n.metric (some .outflow) = .ok u) (hab : ∀ b, n.body ≠ .abstraction b)
    (hriv : ∀ b, n.body = .river b → b.loss = none ∨ b.routing = none) :
    Reports F C f (n.metric (some .outflow)) (sent N F f n.name) := by
  have hmulti : ∀ {S : List Name} {b : Body}, n.body = b → b.Through = true → n.lanes = S → n.metric (some .outflow) = .ok (.multiNodeOutFlow S) →
      Reports F C f (n.metric (some .outflow)) (sent N F f n.name) := by
    intro S b hb ht hS hmet
    exact lanes_out h ha hm (hb ▸ ht) hS hmet
  have hloss : n.body.Lossy = true → n.metric (some .outflow) = .ok (.nodeOutFlow (n.name, some "net")) →
      Reports F C f (n.metric (some .outflow)) (sent N F f n.name) := by
    intro hl hmet
    have hs := lossy h ha hm hl
    rw [← hs.through.2.1]
    exact reports_out1 h hmet f hs.exists_net
  have hsource : ∀ {G : Frag}, n.frag P = .ok G → (∃ d ∈ G.nodes, d.name = (n.name, none)) → G.edges = [] →
      n.outputs = .ok [(n.name, none)] → (∀ b, n.body ≠ .riverSplit b) → (∀ b, n.body ≠ .reservoir b) →
      n.metric (some .outflow) = .ok (.nodeOutFlow (n.name, none)) → Reports F C f (n.metric (some .outflow)) (sent N F f n.name) := by
    intro G hG hd hE ho hb1 hb2 hmet
    obtain ⟨d, hd, hdn⟩ := hd
    exact source_out h hm hG hd hdn hE ho hb1 hab hb2 hmet
  cases hb : n.body with
  | link b =>
    rw [← C65_through h ha hm (by rw [hb]; rfl)]
    exact lanes_in h ha hm (by rw [hb]; rfl) (S := b.names n.name) (by unfold SNode.lanes; simp only [hb]) (by unfold SNode.metric; simp [hb])
  | riverGauge b =>
    exact hmulti hb rfl (S := [(n.name, some "mrf"), (n.name, some "bypass")]) (by unfold SNode.lanes; simp only [hb]) (by unfold SNode.metric; simp [hb])
  | riverSplit b => exact hmulti hb rfl (S := b.names n.name) (by unfold SNode.lanes; simp only [hb]) (by unfold SNode.metric; simp [hb])
  | pieceLink b => exact hmulti hb rfl (S := b.names n.name) (by unfold SNode.lanes; simp only [hb]) (by unfold SNode.metric; simp [hb])
  | abstraction b => exact absurd hb (hab b)
  | turbine b =>
    obtain ⟨G, hG⟩ := frag_of_mem h.compiled hm
    have hG' := hG
    unfold SNode.frag at hG'
    simp only [hb, Except.ok.injEq, TurbineN.frag] at hG'
    exact hsource hG (by subst hG'; simp) (by subst hG'; rfl) (by unfold SNode.outputs; simp only [hb]) (by simp [hb]) (by simp [hb])
      (by unfold SNode.metric; simp [hb])
  | input b =>
    obtain ⟨G, hG⟩ := frag_of_mem h.compiled hm
    have hG' := hG
    unfold SNode.frag at hG'
    simp only [hb, Except.ok.injEq, FlowN.inputFrag] at hG'
    exact hsource hG (by subst hG'; simp) (by subst hG'; rfl) (by unfold SNode.outputs; simp only [hb]) (by simp [hb]) (by simp [hb])
      (by unfold SNode.metric; simp [hb])
  | catchment b =>
    obtain ⟨G, hG⟩ := frag_of_mem h.compiled hm
    have hG' := hG
    unfold SNode.frag at hG'
    simp only [hb, Except.ok.injEq, CatchmentN.frag] at hG'
    exact hsource hG (by subst hG'; simp) (by subst hG'; rfl) (by unfold SNode.outputs; simp only [hb]) (by simp [hb]) (by simp [hb])
      (by unfold SNode.metric; simp [hb])
  | lossLink b => exact hloss (by rw [hb]; rfl) (by unfold SNode.metric; simp [hb])
  | works b => exact hloss (by rw [hb]; rfl) (by unfold SNode.metric; simp [hb])
  | delay b =>
    have hr := routed h ha hm (by rw [hb]; rfl)
    have hs := hr.sent
    rw [hb] at hs
    simp only [Body.loss, Option.isSome_none, Bool.false_eq_true, if_false, add_zero] at hs
    rw [← hs]
    exact reports_out1 h (by unfold SNode.metric; simp [hb]) f hr.present.2.1
  | river b =>
    cases hrt : b.routing with
    | some r =>
      have hl : b.loss = none := by
        rcases hriv b hb with hl | hl
        · exact hl
        · rw [hrt] at hl; cases hl
      have hr := routed h ha hm (by rw [hb]; simp [Body.Routed, hrt])
      have hs := hr.sent
      rw [hb] at hs
      simp only [Body.loss, hl, Option.isSome_none, Bool.false_eq_true, if_false, add_zero] at hs
      rw [← hs]
      have := reports_out h (m := n.metric (some .outflow)) (S := [(n.name, some "outflow")])
        (by unfold SNode.metric SNode.flowNodes; simp only [hb, hrt]; rfl) f (by simpa using hr.present.2.1)
      simpa using this
    | none =>
      have hs := lossy h ha hm (by rw [hb]; simp [Body.Lossy, hrt])
      rw [← hs.through.2.1]
      have := reports_out h (m := n.metric (some .outflow)) (S := [(n.name, some "net")])
        (by unfold SNode.metric SNode.flowNodes; simp only [hb, hrt]; rfl) f (by simpa using hs.exists_net)
      simpa using this
  | output b => unfold SNode.metric at hu; simp [hb] at hu
  | storage b => unfold SNode.metric at hu; simp [hb, storageMetric] at hu
  | pieceStore b => unfold SNode.metric at hu; simp [hb] at hu
  | reservoir b => unfold SNode.metric at hu; simp [hb, storageMetric] at hu
  | placeholder => unfold SNode.metric at hu; simp [hb] at hu

/-- **C66, refuted for rivers with both routing and a loss.** Such a river reports as outflow what it sends and what is lost. -/
theorem C66_river_outflow_refuted {b : RiverN} (hb : n.body = .river b) (hl : b.loss.isSome = true) (hr : b.routing.isSome = true) :
    ∃ v, Reports F C f (n.metric (some .loss)) v ∧ Reports F C f (n.metric (some .outflow)) (sent N F f n.name + v) := by
  have hrt := routed h ha hm (by rw [hb]; exact hr)
  have hbl : n.body.loss = b.loss := by rw [hb]; rfl
  have hs := hrt.sent
  rw [hbl, hl] at hs
  simp only [if_true] at hs
  refine ⟨into F f (n.name, some "loss"), ?_, ?_⟩
  · exact reports_in1 h (by unfold SNode.metric; simp [hb, hl]) f (hrt.present.2.2 (by rw [hbl]; exact hl))
  · rw [← hs]
    have := reports_out h (m := n.metric (some .outflow)) (S := [(n.name, some "outflow")])
      (by unfold SNode.metric SNode.flowNodes; simp [hb, hr, Except.map]) f (by simpa using hrt.present.2.1)
    simpa using this

/-- **C66 (abstraction).** An abstraction reports as abstraction what it sends along edges from the abstraction slot, and as outflow
what it sends along the others. -/
theorem C66_abstraction {b : AbstractionN} (hb : n.body = .abstraction b) :
    Reports F C f (n.metric (some .abstraction)) (sentVia N F f n.name (fun s => s = some .abstraction)) ∧
    Reports F C f (n.metric (some .outflow)) (sentVia N F f n.name (fun s => s ≠ some .abstraction)) := by
  have ht : n.body.Through = true := by rw [hb]; rfl
  have hl : n.lanes = (if b.mrf.isSome then [(n.name, some "mrf")] else []) ++ [(n.name, some "bypass"), (n.name, some "abstraction")] := by
    unfold SNode.lanes; simp only [hb]
  obtain ⟨_, _, h3, h4⟩ := (parallel_of (P := P) ht).sums h hm ha
  obtain ⟨G, hG⟩ := frag_of_mem h.compiled hm
  have hE : G.edges = [] := ((parallel_of (P := P) ht).frag G hG).1
  rw [hl] at h3 h4
  have hconn : ∀ s ns, n.outputConnectors s = .ok ns →
      (s = some .abstraction ∧ ns = [(n.name, some "abstraction")]) ∨
      (s ≠ some .abstraction ∧ ns = (if b.mrf.isSome then [(n.name, some "mrf")] else []) ++ [(n.name, some "bypass")]) := by
    intro s ns hc
    unfold SNode.outputConnectors at hc
    simp only [hb] at hc
    split at hc
    · right; simp only [Except.ok.injEq] at hc; subst hc; cases b.mrf <;> simp
    · right; simp only [Except.ok.injEq] at hc; subst hc; cases b.mrf <;> simp
    · left; simp only [Except.ok.injEq] at hc; subst hc; simp
    · cases hc
  constructor
  · have := outOf_via h.compiled hm hG f [(n.name, some "abstraction")] (by simp) (by simp) (fun s => s = some .abstraction)
      (by
        intro s ns hc hq c hcn
        rcases hconn s ns hc with ⟨_, rfl⟩ | ⟨h1, rfl⟩
        · exact hcn
        · simp at hq; exact absurd hq h1)
      (by
        intro s ns hc hq c hcn
        rcases hconn s ns hc with ⟨h1, rfl⟩ | ⟨h1, rfl⟩
        · simp [h1] at hq
        · simp at hcn
          rcases hcn with ⟨_, rfl⟩ | rfl <;> simp)
    rw [hE, sumWhere_nil, zero_add] at this
    simp only [List.map_cons, List.map_nil, List.sum_cons, List.sum_nil, add_zero] at this
    rw [← this]
    exact reports_out1 h (by unfold SNode.metric; simp [hb]) f (h4 _ (by simp))
  · have := outOf_via h.compiled hm hG f ((if b.mrf.isSome then [(n.name, some "mrf")] else []) ++ [(n.name, some "bypass")])
      (by cases b.mrf <;> simp) (by cases b.mrf <;> simp) (fun s => s ≠ some .abstraction)
      (by
        intro s ns hc hq c hcn
        rcases hconn s ns hc with ⟨h1, rfl⟩ | ⟨h1, rfl⟩
        · simp [h1] at hq
        · exact hcn)
      (by
        intro s ns hc hq c hcn
        rcases hconn s ns hc with ⟨h1, rfl⟩ | ⟨h1, rfl⟩
        · simp only [List.mem_singleton] at hcn; subst hcn; cases b.mrf <;> simp
        · simp at hq; exact absurd hq h1)
    rw [hE, sumWhere_nil, zero_add] at this
    have hS : ∀ c ∈ ((if b.mrf.isSome then [(n.name, some "mrf")] else []) ++ [(n.name, some "bypass")] : List Name),
        c ∈ (if b.mrf.isSome then [(n.name, some "mrf")] else []) ++ [(n.name, some "bypass"), (n.name, some "abstraction")] := by
      intro c hc
      simp only [List.mem_append, List.mem_cons, List.not_mem_nil, or_false] at hc ⊢
      tauto
    rw [← this, ← List.map_congr_left (fun c hc => (h3 c (hS c hc)).1)]
    exact reports_in h (by unfold SNode.metric SNode.flowNodes; simp [hb, Except.map]) f (fun c hc => h4 c (hS c hc))

/-- **C66 (compensation).** A reservoir reports its compensation release, which is at least the compensation flow given. -/
theorem C66_compensation {b : ReservoirN} (hb : n.body = .reservoir b) {c : Metric} (hc : b.compensation = some c) :
    ∃ v q, Reports F C f (n.metric (some .compensation)) v ∧ c.get st.metric = some q ∧ q ≤ v := by
  obtain ⟨G, hG⟩ := frag_of_mem h.compiled hm
  have hev := no_evaporation h hm hb
  have hd := (reservoir_nodes hb hev hG _).2 (Or.inr (Or.inl ⟨c, hc, rfl⟩))
  have hF := mem_nodes h.compiled hm hG hd
  have hbal := link_balance h.built ha hF rfl
  obtain ⟨q, hq, hle⟩ := (flow_limits h.built ha hF (by simp)).1
  refine ⟨into F f (n.name, some "compensation"), q, ?_, hq, ?_⟩
  · exact reports_in1 h (by unfold SNode.metric; simp [hb, hc]) f ⟨_, hF, rfl⟩
  · simp only at hbal
    rw [hbal]
    exact hle

omit ha in
/-- **C66, refuted for rainfall.** Whatever the rainfall on a reservoir, it reports none. -/
theorem C66_rainfall_refuted {b : ReservoirN} (hb : n.body = .reservoir b) : Reports F C f (n.metric (some .rainfall)) 0 := by
  obtain ⟨G, hG⟩ := frag_of_mem h.compiled hm
  have hev := no_evaporation h hm hb
  by_cases hr : (b.rainfall.isSome && b.area.isSome) = true
  · have hd := (reservoir_nodes hb hev hG _).2 (Or.inr (Or.inr (Or.inr (Or.inl ⟨(Bool.and_eq_true_iff.1 hr).1, rfl⟩))))
    have hF := mem_nodes h.compiled hm hG hd
    rw [← into_input h.built hF rfl f]
    exact reports_in1 h (by unfold SNode.metric; simp only [hb, Option.getD_some, hr, if_true]) f ⟨_, hF, rfl⟩
  · refine ⟨.const 0, ?_, rfl⟩
    unfold SNode.metric
    simp only [hb, Option.getD_some, hr, Bool.false_eq_true, if_false]

omit ha in
/-- **C66, refuted for evaporation.** A reservoir with rainfall reports no value for its evaporation: the metric is created, but names a node
that does not exist. -/
theorem C66_evaporation_refuted {b : ReservoirN} (hb : n.body = .reservoir b) (hr : b.rainfall.isSome = true) :
    (∃ u, n.metric (some .evaporation) = .ok u) ∧ ∀ v, ¬ Reports F C f (n.metric (some .evaporation)) v := by
  obtain ⟨G, hG⟩ := frag_of_mem h.compiled hm
  have hev := no_evaporation h hm hb
  have harea : b.area.isSome = true := by
    unfold SNode.frag at hG
    simp only [hb] at hG
    unfold ReservoirN.frag at hG
    cases ha : b.area with
    | none => simp [ha, hr] at hG
    | some a => rfl
  have hmet : n.metric (some .evaporation) = .ok (.nodeInFlow (n.name, some "evaporation")) := by
    unfold SNode.metric; simp [hb, hr, harea]
  refine ⟨⟨_, hmet⟩, ?_⟩
  rintro v ⟨u, hu, hv⟩
  rw [hmet, Except.ok.injEq] at hu
  subst hu
  have hno : (n.name, some "evaporation") ∉ F.nodes.map (·.name) := by
    intro hF
    obtain ⟨d, hd, hdn⟩ := List.mem_map.1 hF
    have hdG := node_owner h hm hG hd (by rw [hdn])
    rcases (reservoir_nodes hb hev hG d).1 hdG with rfl | ⟨c, _, rfl⟩ | ⟨k, _, rfl⟩ | ⟨_, rfl⟩ | ⟨l, _, rfl⟩ <;> simp at hdn
  simp only [UMetric.flow, (inFlowOf_none h.built hno f).1] at hv
  cases hv

omit ha hm in
/-- **C66 (edges).** The flow reported for an edge of the schema is the flow along all the edges it stands for. -/
theorem C66_edge {e : SEdge} (he : e ∈ N.edges) : Reports F C f (N.edgeMetric e) (edgeFlow N F f e) := by
  obtain ⟨Gs, Vs, Es, hparts⟩ := compile_parts h.compiled
  obtain ⟨k, hk⟩ := List.getElem?_of_mem he
  obtain ⟨hlt, hget⟩ := List.getElem?_eq_some_iff.1 hk
  have hlt' : k < Es.length := hparts.pairs.length_eq ▸ hlt
  have hr := hparts.pairs.get hlt hlt'
  simp only [List.get_eq_getElem, hget] at hr
  refine ⟨.multiEdgeFlow Es[k], by unfold Net.edgeMetric; rw [hr]; rfl, ?_⟩
  unfold edgeFlow
  rw [hr]
  simp only [UMetric.flow]
  apply sumAll_some
  intro d hd
  have hF : d ∈ F.edges := by
    rw [hparts.edges']
    exact List.mem_append_right _ (List.mem_flatten.2 ⟨_, List.getElem_mem hlt', hd⟩)
  unfold edgeFlowOf flowOn
  have : F.edges.findIdx? (fun x => decide (x = d)) = some (F.edges.idxOf d) := by
    have hlt : F.edges.idxOf d < F.edges.length := List.idxOf_lt_length_of_mem hF
    rw [List.findIdx?_eq_some_iff_getElem]
    refine ⟨hlt, by simp, ?_⟩
    intro j hj hjeq
    simp only [decide_eq_true_eq] at hjeq
    have := List.not_of_lt_findIdx (p := (· == d)) hj
    simp [hjeq] at this
  rw [this]; rfl

end

end Verif.Schema
