import Verif.Lemmas.SchemaStores

/-!
# C64 – C67: what networks of the schema mean

`Built P N F C` says that the schema `N` is accepted, adds `F` to the builder of the core, and the core network `C` is built.
`received`, `sent` and `edgeFlow` (`Spec/Schema.lean`) are flows along the edges *of the schema*; `Reports` is the value a metric
of the schema has; `Solver.Allowed` says which flows an allocation step may choose (C56).
-/

namespace Verif.Schema

open Verif.State (NodeKind)
open Verif.Topology (Name EdgeDecl TNode)
open Verif.Solver (Metric NodeData Relationship Factors)

/-! ## C64 -/

/-- **C64.** A network passes the check of names exactly when no name is used twice by its nodes and virtual nodes. -/
theorem C64_validate_iff (N : Net) :
    N.validate = .ok () ↔ (N.nodes.map (·.name) ++ N.virtualNodes.map (·.name)).Nodup := by
  constructor
  · intro h
    obtain ⟨h1, h2, h3⟩ := validate_ok N h
    rw [List.nodup_append]
    exact ⟨h1, h2, fun a ha b hb hab => h3 a ha (hab ▸ hb)⟩
  · intro h
    have hc := validate_counts N
    unfold Net.validate
    simp only
    split
    · rfl
    · rename_i hne
      exfalso
      apply hne
      rw [List.isEmpty_iff, List.filter_eq_nil_iff]
      rintro ⟨k, c⟩ hk
      have := ((hc.2 k c).1 hk).2
      have hle := List.nodup_iff_count_le_one.1 h k
      rw [List.count_append] at hle
      simp only [this, gt_iff_lt, decide_eq_true_eq, not_lt]
      exact hle

/-- **C64 (message).** When the check fails, the error lists exactly the names used more than once, each with the number of nodes
and of virtual nodes of that name, in increasing order of names. -/
theorem C64_validate_error (N : Net) (ds : List (String × Nat × Nat)) (h : N.validate = .error (.duplicateNames ds)) :
    (∀ x a b, (x, a, b) ∈ ds ↔ a = (N.nodes.map (·.name)).count x ∧ b = (N.virtualNodes.map (·.name)).count x ∧ 2 ≤ a + b) ∧
    ds.Pairwise (fun p q => p.1 < q.1) := by
  have hc := validate_counts N
  unfold Net.validate at h
  simp only at h
  split at h
  · cases h
  · simp only [Except.error.injEq, Err.duplicateNames.injEq] at h
    subst h
    refine ⟨?_, ?_⟩
    · intro x a b
      rw [sortByName_mem, List.mem_filter]
      simp only [gt_iff_lt, decide_eq_true_eq]
      constructor
      · rintro ⟨h1, h2⟩
        obtain ⟨_, h3⟩ := (hc.2 x (a, b)).1 h1
        simp only [Prod.mk.injEq] at h3
        exact ⟨h3.1, h3.2, h2⟩
      · rintro ⟨rfl, rfl, h2⟩
        exact ⟨(hc.2 x _).2 ⟨by beta_reduce; omega, rfl⟩, h2⟩
    · apply sortByName_sorted
      exact hc.1.sublist (List.filter_sublist.map _)

/-- **C64 (only error).** The check of names fails in no other way. -/
theorem C64_validate_total (N : Net) : N.validate = .ok () ∨ ∃ ds, ds ≠ [] ∧ N.validate = .error (.duplicateNames ds) := by
  unfold Net.validate
  simp only
  split
  · exact Or.inl rfl
  · rename_i hne
    refine Or.inr ⟨_, ?_, rfl⟩
    intro hs
    apply hne
    rw [List.isEmpty_iff]
    cases hl : (List.filter _ _ : List (String × Nat × Nat)) with
    | nil => rfl
    | cons x xs =>
      have := (sortByName_mem x (x :: xs)).2 (by simp)
      rw [← hl, hs] at this
      cases this

/-! ## C65 -/

section
variable {P : ParamNo} {N : Net} {F : Frag} {C : Core} (h : Built P N F C) {st : Solver.StepState} {f : Nat → ℚ}
  (ha : Solver.Allowed C.model st f) {n : SNode} (hm : n ∈ N.nodes)
include h ha hm

omit h ha hm in
/-- A node that passes on what it receives consists of links side by side. -/
theorem parallel_of (hb : n.body.Through = true) : Parallel P n n.lanes := by
  unfold SNode.lanes
  cases hn : n.body <;> simp only [hn, Body.Through, Bool.false_eq_true] at hb ⊢
  · exact parallel_link P n _ hn
  · exact parallel_gauge P n _ hn
  · exact parallel_split P n _ hn
  · exact parallel_pieceLink P n _ hn
  · exact parallel_turbine P n _ hn
  · exact parallel_abstraction P n _ hn

/-- **C65 (passing on).** A link, river gauge, river split, piecewise link, turbine or abstraction sends exactly what it
receives. -/
theorem C65_through (hb : n.body.Through = true) : received N F f n.name = sent N F f n.name :=
  ((parallel_of hb).balance h hm ha).1

/-- What holds for a node with a loss. -/
theorem lossy (hb : n.body.Lossy = true) : SplitsLoss N F st f n (n.name, some "net") (n.name, some "loss") n.body.loss := by
  cases hn : n.body <;> simp only [hn, Body.Lossy, Bool.false_eq_true] at hb
  · exact splits_lossLink h ha hm hn
  · exact splits_river h ha hm hn (by simpa using hb)
  · exact splits_works h ha hm hn

/-- **C65, C67 (losses).** A loss link, a water treatment works or a river without routing receives what it sends and a loss that
is not negative. The loss is what the node reports as its loss; it is the gross loss factor times what is received, or the net
loss factor times what is sent, or nothing without a factor. -/
theorem C65_lossy (hb : n.body.Lossy = true) :
    ∃ v, Reports F C f (n.metric (some .loss)) v ∧ 0 ≤ v ∧ received N F f n.name = sent N F f n.name + v ∧
      LossIs st.metric n.body.loss (received N F f n.name) (sent N F f n.name) v := by
  have hs := lossy h ha hm hb
  have hrep : ∀ l, n.body.loss = l → Reports F C f (n.metric (some .loss)) (if l.isSome then into F f (n.name, some "loss") else 0) := by
    intro l hl
    have hmet : n.metric (some .loss) = .ok (if l.isSome then .nodeInFlow (n.name, some "loss") else .const 0) := by
      cases hn : n.body <;> simp only [hn, Body.Lossy, Bool.false_eq_true] at hb <;> unfold SNode.metric <;> simp only [hn, Option.getD_some] <;>
        rw [← hl, hn] <;> rfl
    cases l with
    | none => exact ⟨_, hmet, rfl⟩
    | some l =>
      simp only [Option.isSome_some, if_true] at hmet ⊢
      exact reports_in1 h hmet f (hs.exists_loss (by rw [hl]; rfl))
  refine ⟨_, hrep _ rfl, ?_, ?_, hs.law⟩
  · split
    · rename_i hl; exact (hs.lost hl).2
    · exact le_refl _
  · rw [← hs.received]
    have := hs.through.1
    split
    · rw [this]
    · rw [this, add_zero]

omit ha in
/-- **C65 (sources).** An input or a catchment receives nothing. -/
theorem C65_source (hb : (∃ b, n.body = .input b) ∨ ∃ b, n.body = .catchment b) : received N F f n.name = 0 := by
  obtain ⟨G, hG⟩ := frag_of_mem h.compiled hm
  have hd : ∃ d ∈ G.nodes, d.name = (n.name, none) ∧ d.kind = .input := by
    unfold SNode.frag at hG
    rcases hb with ⟨b, hb⟩ | ⟨b, hb⟩ <;> simp only [hb, Except.ok.injEq] at hG <;> subst hG
    · simp [FlowN.inputFrag]
    · simp [CatchmentN.frag]
  have hE : G.edges = [] := by
    unfold SNode.frag at hG
    rcases hb with ⟨b, hb⟩ | ⟨b, hb⟩ <;> simp only [hb, Except.ok.injEq] at hG <;> subst hG <;> rfl
  obtain ⟨d, hd, hdn, hk⟩ := hd
  have hr := received_eq h hm hG f (S := [(n.name, none)]) (by rcases hb with ⟨b, hb⟩ | ⟨b, hb⟩ <;> unfold SNode.inputs <;> simp only [hb]) (by simp)
    (by simp [hE])
  simp only [List.map_cons, List.map_nil, List.sum_cons, List.sum_nil, add_zero] at hr
  rw [← hr, ← hdn]
  exact into_input h.built (mem_nodes h.compiled hm hG hd) hk f

omit ha in
/-- **C65 (sinks).** An output sends nothing. -/
theorem C65_sink {b : FlowN} (hb : n.body = .output b) : sent N F f n.name = 0 := by
  obtain ⟨G, hG⟩ := frag_of_mem h.compiled hm
  have hG' := hG
  unfold SNode.frag at hG'
  simp only [hb, Except.ok.injEq, FlowN.outputFrag] at hG'
  have hd : ∃ d ∈ G.nodes, d.name = (n.name, none) ∧ d.kind = .output := by subst hG'; simp
  have hE : G.edges = [] := by subst hG'; rfl
  obtain ⟨d, hd, hdn, hk⟩ := hd
  have hs := sent_eq h hm hG f (S := [(n.name, none)]) (by unfold SNode.outputs; simp only [hb]) (by simp [hb]) (by simp [hb]) (by simp [hb]) (by simp)
    (by simp [hE])
  simp only [List.map_cons, List.map_nil, List.sum_cons, List.sum_nil, add_zero] at hs
  rw [← hs, ← hdn]
  exact outOf_output h.built (mem_nodes h.compiled hm hG hd) hk f

/-- **C65 (storage).** The volume of a storage at the end of a step, the volume at its beginning and what is received less what is
sent over the days of the step, lies within the bounds given in the schema. -/
theorem C65_storage {b : StorageN} (hb : n.body = .storage b) :
    ∃ v, stored F st (n.name, none) = some v ∧
      Solver.AtLeast st.metric b.minVolume 0 (v + st.days * (received N F f n.name - sent N F f n.name)) ∧
      Solver.AtMost st.metric b.maxVolume Solver.f64MAX (v + st.days * (received N F f n.name - sent N F f n.name)) := by
  obtain ⟨G, hG⟩ := frag_of_mem h.compiled hm
  have hG' := hG
  unfold SNode.frag at hG'
  simp only [hb, Except.ok.injEq, StorageN.frag] at hG'
  have hd : ⟨(n.name, none), .storage, volumeData b.cost b.minVolume b.maxVolume, some b.initial.toInitial⟩ ∈ G.nodes := by subst hG'; simp
  have hE : G.edges = [] := by subst hG'; rfl
  have hr := received_eq h hm hG f (S := [(n.name, none)]) (by unfold SNode.inputs; simp only [hb]) (by simp) (by simp [hE])
  have hs := sent_eq h hm hG f (S := [(n.name, none)]) (by unfold SNode.outputs; simp only [hb]) (by simp [hb]) (by simp [hb]) (by simp [hb]) (by simp)
    (by simp [hE])
  simp only [List.map_cons, List.map_nil, List.sum_cons, List.sum_nil, add_zero] at hr hs
  have := stored_limits h ha (mem_nodes h.compiled hm hG hd) rfl
  rw [hr, hs] at this
  exact this

/-- **C65 (reservoir).** The volume of a reservoir at the end of a step is the volume at its beginning and, over the days of the step,
what is received and the rainfall, less what is sent, the leakage, and the spill that leaves the network; it lies within the
bounds given in the schema. The rainfall is the value of the rainfall parameter, the leakage at most the loss given. -/
theorem C65_reservoir {b : ReservoirN} (hb : n.body = .reservoir b) :
    ∃ v rain leak spill, stored F st (n.name, none) = some v ∧
      (let change := received N F f n.name + rain - sent N F f n.name - leak - spill
       Solver.AtLeast st.metric b.storage.minVolume 0 (v + st.days * change) ∧
       Solver.AtMost st.metric b.storage.maxVolume Solver.f64MAX (v + st.days * change)) ∧
      (match b.rainfall with
       | none => rain = 0
       | some _ => st.metric (P n.name "rainfall" none) = some rain) ∧
      (match b.leakage with
       | none => leak = 0
       | some l => 0 ≤ leak ∧ ∃ u, l.loss.get st.metric = some u ∧ leak ≤ u) ∧
      0 ≤ spill ∧ (b.spill ≠ some .output → spill = 0) := by
  obtain ⟨G, hG⟩ := frag_of_mem h.compiled hm
  have hev := no_evaporation h hm hb
  have hmemG := reservoir_nodes hb hev hG
  have habs : ∀ c : Name, c.1 = n.name → (∀ d ∈ G.nodes, d.name ≠ c) → nameFlow F f c = 0 := by
    intro c hc hn
    apply nameFlow_missing
    intro hF
    obtain ⟨d, hd, rfl⟩ := List.mem_map.1 hF
    exact hn d (node_owner h hm hG hd hc) rfl
  have hbal := reservoir_balance h ha hm hb
  have hlim := stored_limits h ha (mem_nodes h.compiled hm hG ((hmemG _).2 (Or.inl rfl))) rfl
  simp only [hbal] at hlim
  obtain ⟨v, hv, hlo, hhi⟩ := hlim
  refine ⟨v, nameFlow F f (n.name, some "rainfall"), nameFlow F f (n.name, some "leakage"),
    (if b.spill = some .output then nameFlow F f (n.name, some "spill") else 0), hv, ⟨hlo, hhi⟩, ?_, ?_, ?_, ?_⟩
  · cases hr : b.rainfall with
    | none =>
      apply habs _ rfl
      intro d hd
      exact fun hdn => (reservoir_kind hb hev hG hd).2.2.2.2.1 hdn hr
    | some r =>
      have hd := (hmemG _).2 (Or.inr (Or.inr (Or.inr (Or.inl ⟨by rw [hr]; rfl, rfl⟩))))
      exact fixed_flow h ha (mem_nodes h.compiled hm hG hd) (by simp) (m := .dyn (P n.name "rainfall" none)) rfl rfl
  · cases hl : b.leakage with
    | none =>
      apply habs _ rfl
      intro d hd
      exact fun hdn => (reservoir_kind hb hev hG hd).2.2.2.2.2 hdn hl
    | some l =>
      have hd := (hmemG _).2 (Or.inr (Or.inr (Or.inr (Or.inr ⟨l, hl, rfl⟩))))
      have hF := mem_nodes h.compiled hm hG hd
      have h1 := flow_limits h.built ha hF (by simp)
      rw [← nameFlow_eq (names_nodup h.built) f hF] at h1
      exact ⟨h1.1, h1.2⟩
  · split
    · rename_i hs
      have hd := (hmemG _).2 (Or.inr (Or.inr (Or.inl ⟨.output, hs, rfl⟩)))
      have := nameFlow_output h hm hG f hd rfl
      simp only at this
      rw [this]
      exact into_nonneg h.built ha _
    · exact le_refl _
  · intro hs; rw [if_neg hs]

/-- **C65 (piecewise storage).** The volumes of the stores of a piecewise storage change, together, by what is received less what
is sent. -/
theorem C65_pieces {b : PieceStoreN} (hb : n.body = .pieceStore b) :
    ∃ vs ws : List ℚ, ((List.range (b.steps.length + 1)).map (storeName n.name)).map (stored F st) = vs.map some ∧
      List.Forall₂ (fun i w => (b.minVolume = none → 0 ≤ w) ∧
        (b.minVolume ≠ none → ∃ lo, (pieceMin P n.name i).get st.metric = some lo ∧ lo ≤ w) ∧
        ∃ hi, (pieceMax P n.name i).get st.metric = some hi ∧ w ≤ hi) (List.range (b.steps.length + 1)) ws ∧
      ws.sum = vs.sum + st.days * (received N F f n.name - sent N F f n.name) := by
  obtain ⟨G, hG⟩ := frag_of_mem h.compiled hm
  have hG' := hG
  unfold SNode.frag at hG'
  simp only [hb, Except.ok.injEq, PieceStoreN.frag] at hG'
  have hstore : ∀ i ∈ List.range (b.steps.length + 1), ∃ v, stored F st (storeName n.name i) = some v ∧
      Solver.AtLeast st.metric (b.minVolume.map (fun _ => pieceMin P n.name i)) 0
        (v + st.days * (into F f (storeName n.name i) - outOf F f (storeName n.name i))) ∧
      Solver.AtMost st.metric (some (pieceMax P n.name i)) Solver.f64MAX
        (v + st.days * (into F f (storeName n.name i) - outOf F f (storeName n.name i))) := by
    intro i hi
    simp only [List.mem_range] at hi
    obtain ⟨d, hd, hdn, hk, h1, h2⟩ := pieceLoop_nodes (P := P) n.name b b.steps 0 none [] i (by omega)
    simp only [zero_add] at hdn h1 h2
    have hdG : d ∈ G.nodes := by subst hG'; exact List.mem_append_left _ hd
    have := stored_limits h ha (mem_nodes h.compiled hm hG hdG) hk
    rw [hdn, h1, h2] at this
    exact this
  have hbal := pieces_balance h (f := f) hm hb
  rw [← hbal]
  clear hbal hG hG'
  generalize hl : List.range (b.steps.length + 1) = l at hstore
  clear hl
  induction l with
  | nil => exact ⟨[], [], rfl, .nil, by simp⟩
  | cons i l ih =>
    obtain ⟨v, hv, hlo, hhi⟩ := hstore i (by simp)
    obtain ⟨vs, ws, h1, h2, h3⟩ := ih (fun j hj => hstore j (by simp [hj]))
    refine ⟨v :: vs, (v + st.days * (into F f (storeName n.name i) - outOf F f (storeName n.name i))) :: ws, ?_, .cons ?_ h2, ?_⟩
    · simp only [List.map_cons, hv, h1]
    · refine ⟨?_, ?_, hhi⟩
      · intro hn; rw [hn] at hlo; exact hlo
      · intro hn
        cases hmv : b.minVolume with
        | none => exact absurd hmv hn
        | some m => rw [hmv] at hlo; exact hlo
    · simp only [List.map_cons, List.sum_cons, h3]; ring

/-- What holds for a routed node. -/
theorem routed (hb : n.body.Routed = true) : Routes N F st f n n.body.loss := by
  cases hn : n.body <;> simp only [hn, Body.Routed, Bool.false_eq_true] at hb
  · obtain ⟨r, hr⟩ := Option.isSome_iff_exists.1 hb
    exact routes_river h ha hm hn hr
  · exact routes_delay h hm hn

/-- **C65 (routing).** What a delay node or a river with routing releases in a step, `out`, is what it sends and its loss, which is not
negative and follows the loss factor with `out` as the gross flow. For a delay, `out` is the value of the delay parameter, which
delays what the node receives; for the Muskingum method, `out` and what the node receives satisfy the equation of the routing
parameter. -/
theorem C65_routed (hb : n.body.Routed = true) :
    ∃ out v, 0 ≤ v ∧ out = sent N F f n.name + v ∧ LossIs st.metric n.body.loss out (sent N F f n.name) v ∧
      (match n.body with
       | .delay b => st.metric (P n.name "delay" none) = some out ∧
          ∃ u, Reports F C f (.ok u) (received N F f n.name) ∧ (n.name, "delay", PDef.delay u b.delay b.initial) ∈ F.params
       | .river b =>
          match b.routing with
          | some (.delay d q) => st.metric (P n.name "delay" none) = some out ∧
              ∃ u, Reports F C f (.ok u) (received N F f n.name) ∧ (n.name, "delay", PDef.delay u d q) ∈ F.params
          | some (.muskingum t w) =>
              (∃ g c, st.metric (P n.name "muskingum" (some "inflow_factor")) = some g ∧ st.metric (P n.name "muskingum" (some "rhs")) = some c ∧
                out + g * received N F f n.name = c) ∧
              ∃ u u', Reports F C f (.ok u) (received N F f n.name) ∧ Reports F C f (.ok u') out ∧
                (n.name, "muskingum", PDef.muskingum u u' t w) ∈ F.params
          | none => True
       | _ => True) := by
  have hr := routed h ha hm hb
  obtain ⟨G, hG⟩ := frag_of_mem h.compiled hm
  have hG' := hG
  unfold SNode.frag at hG'
  have hin : Reports F C f (.ok (.nodeInFlow (n.name, some "inflow"))) (received N F f n.name) := by
    have := reports_in1 h (m := .ok (.nodeInFlow (n.name, some "inflow"))) rfl f hr.present.1
    rwa [hr.inflow.1] at this
  have hout : Reports F C f (.ok (.nodeOutFlow (n.name, some "outflow"))) (outOf F f (n.name, some "outflow")) :=
    reports_out1 h rfl f hr.present.2.1
  refine ⟨outOf F f (n.name, some "outflow"), (if n.body.loss.isSome then into F f (n.name, some "loss") else 0), ?_, hr.sent, hr.law, ?_⟩
  · split
    · rename_i hl; exact (hr.lost hl).1
    · exact le_refl _
  · cases hn : n.body with
    | delay b =>
      simp only [hn, Except.ok.injEq, DelayN.frag] at hG'
      refine ⟨?_, _, hin, mem_params h hm hG (by subst hG'; simp)⟩
      have hd : ⟨(n.name, some "outflow"), .input, flowData none (some (.dyn (P n.name "delay" none))) (some (.dyn (P n.name "delay" none))), none⟩
        ∈ G.nodes := by subst hG'; simp
      have := fixed_flow h ha (mem_nodes h.compiled hm hG hd) (by simp) (m := .dyn (P n.name "delay" none)) rfl rfl
      simp only at this
      rw [hr.out] at this
      exact this
    | river b =>
      simp only [hn, Except.ok.injEq, RiverN.frag] at hG'
      cases hrt : b.routing with
      | none => simp only [hrt]
      | some rt =>
        cases rt with
        | delay d q =>
          simp only [hrt]
          refine ⟨?_, _, hin, mem_params h hm hG (e := (n.name, "delay", PDef.delay (.nodeInFlow (n.name, some "inflow")) d q)) ?_⟩
          · have hd : ⟨(n.name, some "outflow"), .input, flowData none (some (.dyn (P n.name "delay" none))) (some (.dyn (P n.name "delay" none))), none⟩
              ∈ G.nodes := by
              cases hl : b.loss <;> simp only [hl, hrt, RiverN.routingFrag] at hG' <;> subst hG' <;> simp
            have := fixed_flow h ha (mem_nodes h.compiled hm hG hd) (by simp) (m := .dyn (P n.name "delay" none)) rfl rfl
            simp only at this
            rw [hr.out] at this
            exact this
          · cases hl : b.loss <;> simp only [hl, hrt, RiverN.routingFrag] at hG' <;> subst hG' <;> simp
        | muskingum t w =>
          simp only [hrt]
          refine ⟨?_, _, _, hin, hout, mem_params h hm hG
            (e := (n.name, "muskingum", PDef.muskingum (.nodeInFlow (n.name, some "inflow")) (.nodeOutFlow (n.name, some "outflow")) t w)) ?_⟩
          · have hagg : ⟨(n.name, some "aggregated_routing_node"), [[(n.name, some "outflow")], [(n.name, some "inflow")]], none, none,
                some (.factored (.coefficients [.const 1, .dyn (P n.name "muskingum" (some "inflow_factor"))]
                  (some (.dyn (P n.name "muskingum" (some "rhs"))))))⟩ ∈ G.aggs := by
              cases hl : b.loss <;> simp only [hl, hrt, RiverN.routingFrag] at hG' <;> subst hG' <;> simp
            obtain ⟨g, c, h1, h2, h3⟩ := two_coefficients h.built ha (mem_aggs h.compiled hm hG hagg) rfl rfl
            rw [hr.out, hr.inflow.2] at h3
            exact ⟨g, c, h1, h2, h3⟩
          · cases hl : b.loss <;> simp only [hl, hrt, RiverN.routingFrag] at hG' <;> subst hG' <;> simp
    | _ => exact trivial

end

end Verif.Schema
