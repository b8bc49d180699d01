import Verif.Props.SchemaVirtual

/-!
# C70: virtual storages of the schema

A virtual storage is drawn down by the flows of the components it refers to, each multiplied by its factor.
-/

namespace Verif.Schema

open Verif.Topology (Name EdgeDecl)
open Verif.Solver (Metric AtLeast AtMost f64MAX)

/-- The `k`-th virtual storage of the network is the one of the virtual node `v`. -/
def IsLicence (F : Frag) (v : VNode) (k : Nat) : Prop := (F.vs[k]?).map (·.name) = some (v.name, none)

/-- A builder fragment without virtual storages, local parameters and aggregated costs. -/
structure Frag.Plain (G : Frag) : Prop where
  cost : ∀ d ∈ G.nodes, d.data.costAgg = none
  locals : G.locals = []
  vs : G.vs = []

theorem Frag.Plain.add {a b : Frag} (ha : a.Plain) (hb : b.Plain) : (a.add b).Plain := by
  refine ⟨?_, ?_, ?_⟩
  · intro d hd
    simp only [Frag.add, List.mem_append] at hd
    exact hd.elim (ha.cost d) (hb.cost d)
  · simp [Frag.add, ha.locals, hb.locals]
  · simp [Frag.add, ha.vs, hb.vs]

theorem plain_empty : Frag.Plain {} := ⟨by simp, rfl, rfl⟩

theorem plain_split (x : String) (ss : List Split) (i : Nat) : (splitLoop x ss i).Plain := by
  induction ss generalizing i with
  | nil => exact plain_empty
  | cons s ss ih => exact Frag.Plain.add ⟨by simp [noData], rfl, rfl⟩ (ih _)

theorem plain_step (x : String) (ss : List FlowN) (i : Nat) : ∀ d ∈ stepLoop x ss i, d.data.costAgg = none := by
  induction ss generalizing i with
  | nil => simp [stepLoop]
  | cons s ss ih =>
    intro d hd
    rcases List.mem_cons.1 hd with rfl | hd
    · rfl
    · exact ih _ d hd

theorem plain_piece (P : ParamNo) (x : String) (n : PieceStoreN) (ss : List Piece) (i : Nat) (lower : Option Metric) (prior : List Metric) :
    (pieceLoop P x n ss i lower prior).Plain := by
  induction ss generalizing i lower prior with
  | nil => exact ⟨by simp [pieceLoop, pieceFrag, volumeData], rfl, rfl⟩
  | cons s ss ih => exact Frag.Plain.add ⟨by simp [pieceFrag, volumeData], rfl, rfl⟩ (ih _ _ _)

/-- Nodes of the schema aggregate no costs. -/
theorem frag_plain {P : ParamNo} {n : SNode} {G : Frag} (hG : n.frag P = .ok G) : G.Plain := by
  unfold SNode.frag at hG
  cases hb : n.body with
  | input b => simp only [hb, Except.ok.injEq] at hG; subst hG; exact ⟨by simp [FlowN.inputFrag, flowData], rfl, rfl⟩
  | output b => simp only [hb, Except.ok.injEq] at hG; subst hG; exact ⟨by simp [FlowN.outputFrag, flowData], rfl, rfl⟩
  | link b =>
    simp only [hb, Except.ok.injEq] at hG
    subst hG
    unfold LinkN.frag
    cases b.softMin <;> cases b.softMax <;> exact ⟨by simp [flowData], rfl, rfl⟩
  | storage b => simp only [hb, Except.ok.injEq] at hG; subst hG; exact ⟨by simp [StorageN.frag, volumeData], rfl, rfl⟩
  | catchment b => simp only [hb, Except.ok.injEq] at hG; subst hG; exact ⟨by simp [CatchmentN.frag, flowData], rfl, rfl⟩
  | riverGauge b => simp only [hb, Except.ok.injEq] at hG; subst hG; exact ⟨by simp [GaugeN.frag, flowData, noData], rfl, rfl⟩
  | lossLink b =>
    simp only [hb, Except.ok.injEq] at hG
    subst hG
    unfold LossLinkN.frag
    cases b.loss <;> exact ⟨by simp [flowData], rfl, rfl⟩
  | river b =>
    simp only [hb, Except.ok.injEq] at hG
    subst hG
    unfold RiverN.frag
    have h1 : ∀ l, (RiverN.lossFrag n.name l).1.data.costAgg = none := by intro l; unfold RiverN.lossFrag; cases l.load <;> rfl
    have h2 : ∀ r, (RiverN.routingFrag P n.name r).1.data.costAgg = none := by intro r; cases r <;> rfl
    cases b.loss <;> cases b.routing <;> exact ⟨by simp [noData, h1, h2], rfl, rfl⟩
  | riverSplit b =>
    simp only [hb, Except.ok.injEq] at hG
    subst hG
    exact Frag.Plain.add (plain_split _ _ _) ⟨by simp [flowData, noData], rfl, rfl⟩
  | works b =>
    simp only [hb, Except.ok.injEq] at hG
    subst hG
    unfold WorksN.frag
    cases b.loss with
    | none => exact ⟨by simp [flowData, noData], rfl, rfl⟩
    | some l => simp only; cases l.load <;> exact ⟨by simp [flowData, noData], rfl, rfl⟩
  | pieceLink b => simp only [hb, Except.ok.injEq] at hG; subst hG; exact ⟨plain_step _ _ _, rfl, rfl⟩
  | pieceStore b =>
    simp only [hb, Except.ok.injEq] at hG
    subst hG
    exact Frag.Plain.add (plain_piece _ _ _ _ _ _ _) ⟨by simp, rfl, rfl⟩
  | delay b => simp only [hb, Except.ok.injEq] at hG; subst hG; exact ⟨by simp [DelayN.frag, flowData, noData], rfl, rfl⟩
  | turbine b =>
    simp only [hb, Except.ok.injEq] at hG
    subst hG
    refine ⟨?_, rfl, rfl⟩
    unfold TurbineN.frag
    intro d hd
    simp only [List.mem_singleton] at hd
    subst hd
    simp only
    split <;> rfl
  | reservoir b =>
    simp only [hb] at hG
    unfold ReservoirN.frag at hG
    split at hG
    · cases hG
    · split at hG
      · cases hG
      · simp only [Except.ok.injEq] at hG
        subst hG
        refine Frag.Plain.add (Frag.Plain.add (Frag.Plain.add ⟨by simp [StorageN.frag, volumeData], rfl, rfl⟩ ?_) ?_) ?_
        · unfold ReservoirN.releaseFrag
          refine Frag.Plain.add (Frag.Plain.add ?_ ?_) ?_
          · cases b.compensation
            · exact plain_empty
            · exact ⟨by simp [flowData], rfl, rfl⟩
          · cases b.spill
            · exact plain_empty
            · exact ⟨by simp [noData], rfl, rfl⟩
          · split
            · exact ⟨by simp, rfl, rfl⟩
            · exact plain_empty
        · cases b.area with
          | none => exact plain_empty
          | some a =>
            refine Frag.Plain.add ?_ ?_
            · cases b.rainfall
              · exact plain_empty
              · exact ⟨by simp [ReservoirN.rainFrag, flowData], rfl, rfl⟩
            · cases b.evaporation
              · exact plain_empty
              · exact ⟨by simp [ReservoirN.evapFrag, flowData], rfl, rfl⟩
        · cases b.leakage
          · exact plain_empty
          · exact ⟨by simp [ReservoirN.leakFrag, flowData], rfl, rfl⟩
  | placeholder => simp [hb] at hG
  | abstraction b =>
    simp only [hb] at hG
    unfold AbstractionN.frag at hG
    cases hm : b.mrf with
    | some m => simp only [hm, Except.ok.injEq] at hG; subst hG; exact ⟨by simp [flowData, noData], rfl, rfl⟩
    | none =>
      simp only [hm] at hG
      split at hG
      · cases hG
      · simp only [Except.ok.injEq] at hG; subst hG; exact ⟨by simp [flowData, noData], rfl, rfl⟩

section
variable {P : ParamNo} {N : Net} {F : Frag} {C : Core} (h : Built P N F C)
include h

/-- A virtual node adds its virtual storage to the network. -/
theorem virtual_vs {v : VNode} (hv : v ∈ N.virtualNodes) {refs factors cost} (hb : v.body = .virtualStorage refs factors cost) :
    ∃ sets, List.Forall₂ (fun r S => N.refNodes r = .ok S) refs sets ∧ ⟨(v.name, none), sets.flatten, factors, cost⟩ ∈ F.vs := by
  obtain ⟨Gs, Vs, Es, hparts⟩ := compile_parts h.compiled
  obtain ⟨V, hV, hvV⟩ := forall₂_mem hparts.virtuals hv
  have hV' := hvV
  unfold Net.virtualFrag at hV'
  simp only [hb] at hV'
  obtain ⟨sets, hs, hV'⟩ := bind_ok hV'
  simp only [pure, Except.pure, Except.ok.injEq] at hV'
  refine ⟨sets, (each_ok _ _ _).1 hs, ?_⟩
  rw [hparts.vs]
  try apply List.mem_append_right
  rw [List.mem_flatMap]
  exact ⟨V, hV, by rw [← hV']; simp⟩

/-- The virtual storage of a virtual node in the built network. -/
theorem vs_at {d : VsDecl} (hm : d ∈ F.vs) : ∃ (k : Nat) (is : List Nat), F.vs[k]? = some d ∧ List.Forall₂ (fun n i => F.index? n = .ok i) d.nodes is ∧
    C.model.vs[k]? = some (Solver.VStore.mk (is.zip (d.factors.getD (is.map (fun _ => 1)))) d.cost) := by
  have hall := (build_ok F C h.built).2.2.2.2
  obtain ⟨k, hk⟩ := List.getElem?_of_mem hm
  obtain ⟨hlt, hget⟩ := List.getElem?_eq_some_iff.1 hk
  have hlt' : k < C.model.vs.length := hall.length_eq ▸ hlt
  have hr := hall.get hlt hlt'
  simp only [List.get_eq_getElem, hget] at hr
  unfold Frag.resolveVs at hr
  cases hs : eachB F.index? d.nodes with
  | error e => simp [hs, Bind.bind, Except.bind] at hr
  | ok is =>
    simp only [hs, Bind.bind, Except.bind, Pure.pure, Except.pure, Except.ok.injEq] at hr
    exact ⟨k, is, hk, (eachB_ok _ _ _).1 hs, by rw [List.getElem?_eq_getElem hlt', ← hr]⟩

omit h in
theorem use_ones (net : Topology.Network) (f : Nat → ℚ) (is : List Nat) (c : Option Metric) :
    Solver.vsUse net f ⟨is.zip (is.map (fun _ => 1)), c⟩ = (is.map (Solver.flowAt net f)).sum := by
  unfold Solver.vsUse
  induction is with
  | nil => rfl
  | cons i is ih => simpa using ih

theorem flows_names (f : Nat → ℚ) {ns : List Name} {is : List Nat} (hf : List.Forall₂ (fun n i => F.index? n = .ok i) ns is) :
    is.map (Solver.flowAt C.model.net f) = ns.map (nameFlow F f) := by
  induction hf with
  | nil => rfl
  | cons hab _ ih => rw [List.map_cons, List.map_cons, ih, flowAt_eq h.built f hab]

variable {st : Solver.StepState} {f : Nat → ℚ} (ha : Solver.Allowed C.model st f)
include ha

/-- The references of a virtual storage or aggregated node carry the flows of their core nodes. -/
theorem refs_flows {refs : List Ref} {sets : List (List Name)} (hsets : List.Forall₂ (fun r S => N.refNodes r = .ok S) refs sets)
    (hpres : ∀ S ∈ sets, ∀ x ∈ S, x ∈ F.nodes.map (·.name))
    (hriv : ∀ r ∈ refs, ∀ n ∈ N.nodes, ∀ b, n.name = r.name → n.body = .river b → r.component.getD .outflow = .outflow →
      b.loss = none ∨ b.routing = none) :
    List.Forall₂ (RefIs P N F C st f) refs (sets.map (fun s => (s.map (nameFlow F f)).sum)) := by
  rw [List.forall₂_map_right_iff]
  induction hsets with
  | nil => exact .nil
  | cons hr _ ih =>
    refine .cons ?_ (ih (fun S hS => hpres S (by simp [hS])) (fun r hr => hriv r (by simp [hr])))
    obtain ⟨n, hn, hf⟩ := bind_ok hr
    obtain ⟨hm, hname⟩ := node?_ok hn
    exact ⟨n, hm, hname, C69_component h ha hm hf (hpres _ List.mem_cons_self)
      (fun b hb hc => hriv _ List.mem_cons_self n hm b hname hb hc)⟩

/-- **C70 (use).** While it is active, a virtual storage without factors limits the sum of the flows of the components it refers to by what it
has left and, for negative sums, by what it lacks to be full. -/
theorem C70_use {v : VNode} (hv : v ∈ N.virtualNodes) {refs cost} (hb : v.body = .virtualStorage refs none cost)
    (hriv : ∀ r ∈ refs, ∀ n ∈ N.nodes, ∀ b, n.name = r.name → n.body = .river b → r.component.getD .outflow = .outflow →
      b.loss = none ∨ b.routing = none) :
    ∃ k, IsLicence F v k ∧ ∃ qs : List ℚ, List.Forall₂ (RefIs P N F C st f) refs qs ∧
      (st.vsActive k = true → ∃ available missing, st.vsBounds k = some (available, missing) ∧
        st.days * qs.sum ≤ available ∧ -(st.days * qs.sum) ≤ missing) := by
  obtain ⟨sets, hsets, hmem⟩ := virtual_vs h hv hb
  obtain ⟨k, is, hk, his, hC⟩ := vs_at h hmem
  have hnames := flows_names h f his
  simp only at his hnames hC
  refine ⟨k, by unfold IsLicence; rw [hk]; rfl, _, refs_flows h ha hsets ?_ hriv, ?_⟩
  · intro S hS x hx
    obtain ⟨i, _, hi⟩ := forall₂_mem his (List.mem_flatten.2 ⟨S, hS, hx⟩)
    obtain ⟨d, hd, hdn⟩ := (index_ok (names_nodup h.built) x i).1 hi
    exact List.mem_map.2 ⟨d, List.mem_of_getElem? hd, hdn⟩
  · intro hact
    have := ha.vs k _ hC hact
    rw [Option.getD_none, use_ones, hnames] at this
    have hsum : (sets.flatten.map (nameFlow F f)).sum = (sets.map (fun s => (s.map (nameFlow F f)).sum)).sum := by
      clear hsets hmem hk his hC hnames this
      induction sets with
      | nil => rfl
      | cons s ss ih =>
        rw [List.flatten_cons, List.map_append, List.sum_append, ih]
        rfl
    rwa [hsum] at this

/-- **C70 (factors).** With one factor for each reference, each reference meaning a single core node, the flows are multiplied by their
factors. -/
theorem C70_factors_partial {v : VNode} (hv : v ∈ N.virtualNodes) {refs fs cost} (hb : v.body = .virtualStorage refs (some fs) cost)
    (hone : ∀ r ∈ refs, ∃ x, N.refNodes r = .ok [x])
    (hriv : ∀ r ∈ refs, ∀ n ∈ N.nodes, ∀ b, n.name = r.name → n.body = .river b → r.component.getD .outflow = .outflow →
      b.loss = none ∨ b.routing = none) :
    ∃ k, IsLicence F v k ∧ ∃ qs : List ℚ, List.Forall₂ (RefIs P N F C st f) refs qs ∧
      (st.vsActive k = true → ∃ available missing, st.vsBounds k = some (available, missing) ∧
        st.days * (List.zipWith (· * ·) fs qs).sum ≤ available ∧ -(st.days * (List.zipWith (· * ·) fs qs).sum) ≤ missing) := by
  obtain ⟨sets, hsets, hmem⟩ := virtual_vs h hv hb
  obtain ⟨k, is, hk, his, hC⟩ := vs_at h hmem
  have hnames := flows_names h f his
  simp only at his hnames hC
  refine ⟨k, by unfold IsLicence; rw [hk]; rfl, _, refs_flows h ha hsets ?_ hriv, ?_⟩
  · intro S hS x hx
    obtain ⟨i, _, hi⟩ := forall₂_mem his (List.mem_flatten.2 ⟨S, hS, hx⟩)
    obtain ⟨d, hd, hdn⟩ := (index_ok (names_nodup h.built) x i).1 hi
    exact List.mem_map.2 ⟨d, List.mem_of_getElem? hd, hdn⟩
  · intro hact
    have := ha.vs k _ hC hact
    have hsingle : sets.flatten.map (nameFlow F f) = sets.map (fun s => (s.map (nameFlow F f)).sum) := by
      clear hmem hk his hC hnames this hb hriv
      induction hsets with
      | nil => rfl
      | cons hr _ ih =>
        obtain ⟨x, hx⟩ := hone _ List.mem_cons_self
        rw [hx, Except.ok.injEq] at hr
        subst hr
        simpa using ih (fun r hr => hone r (by simp [hr]))
    have hzip : ∀ (is : List Nat) (fs : List ℚ), Solver.vsUse C.model.net f ⟨is.zip fs, cost⟩ =
        (List.zipWith (· * ·) fs (is.map (Solver.flowAt C.model.net f))).sum := by
      intro is
      unfold Solver.vsUse
      induction is with
      | nil => intro fs; simp
      | cons i is ih =>
        intro fs
        cases fs with
        | nil => simp
        | cons g gs => simpa using ih gs
    rwa [Option.getD_some, hzip, hnames, hsingle] at this

omit ha in
/-- **C70, refuted (cost).** The cost of a virtual storage of the schema has no effect: the cost of every core node is its own. -/
theorem C70_cost_refuted {t : Topology.TNode} (ht : t ∈ C.model.net.nodes) (σ : Nat → Option ℚ) (c : ℚ) :
    Solver.CostIs C.model σ t c ↔ ∃ d ∈ F.nodes, d.name = t.name ∧ Solver.ValueIs σ d.data.cost 0 c := by
  obtain ⟨Gs, Vs, Es, hparts⟩ := compile_parts h.compiled
  obtain ⟨k, hk⟩ := List.getElem?_of_mem ht
  have hlt : k < F.nodes.length := by
    rw [← nodes_length h.built]
    exact (List.getElem?_eq_some_iff.1 hk).1
  have hd : F.nodes[k]? = some F.nodes[k] := List.getElem?_eq_getElem hlt
  have hdm : F.nodes[k] ∈ F.nodes := List.getElem_mem hlt
  obtain ⟨vs, hv⟩ := node_at h.built hd
  rw [hk, Option.some.injEq] at hv
  have hcost : F.nodes[k].data.costAgg = none := by
    generalize F.nodes[k] = d at hdm
    rw [hparts.nodes, List.mem_append] at hdm
    rcases hdm with hdm | hdm
    · obtain ⟨G, hGs, hdG⟩ := List.mem_flatMap.1 hdm
      obtain ⟨n, _, hn⟩ := forall₂_mem hparts.frags.flip hGs
      exact (frag_plain hn).cost d hdG
    · obtain ⟨V, hVs, hdV⟩ := List.mem_flatMap.1 hdm
      obtain ⟨n, _, hn⟩ := forall₂_mem hparts.virtuals.flip hVs
      rw [(virtual_frag hn).1] at hdV
      cases hdV
  unfold Solver.CostIs
  have hi : t.index = k := by rw [hv]
  rw [hi, data_at h.built hd, hcost]
  constructor
  · rintro ⟨own, hown, rfl⟩
    exact ⟨_, hdm, by rw [hv], hown⟩
  · rintro ⟨d, hdF, hdn, hval⟩
    have : d = F.nodes[k] := by
      have h1 := find_name (names_nodup h.built) hdF
      have h2 := find_name (names_nodup h.built) hdm
      rw [show F.nodes[k].name = t.name by rw [hv], ← hdn, h1, Option.some.injEq] at h2
      exact h2
    exact ⟨c, by rw [← this]; exact hval, rfl⟩

omit ha in
/-- **C70, refuted (local parameters).** Parameters defined on virtual nodes are not added to the network. -/
theorem C70_parameters_refuted {v : VNode} (hv : v ∈ N.virtualNodes) (p : String) : (v.name, p) ∉ F.locals := by
  obtain ⟨Gs, Vs, Es, hparts⟩ := compile_parts h.compiled
  have hG : Gs.flatMap (·.locals) = [] := flatMap_nil_of hparts.frags _ (fun _ _ hn => (frag_plain hn).locals)
  have hV : Vs.flatMap (·.locals) = [] := by
    refine flatMap_nil_of hparts.virtuals _ ?_
    intro v G hG
    unfold Net.virtualFrag at hG
    cases hb : v.body with
    | placeholder => simp [hb] at hG
    | _ =>
      simp only [hb] at hG
      obtain ⟨s, _, hs⟩ := bind_ok hG
      simp only [Pure.pure, Except.pure, Except.ok.injEq] at hs
      subst hs; rfl
  rw [hparts.locals, hG, hV, List.nil_append, List.nil_append]
  intro hmem
  obtain ⟨n, hn, hp⟩ := List.mem_flatMap.1 hmem
  obtain ⟨q, _, hq⟩ := List.mem_map.1 hp
  have hnd := (C64_validate_iff N).1 hparts.valid
  rw [List.nodup_append] at hnd
  exact hnd.2.2 n.name (List.mem_map_of_mem hn) v.name (List.mem_map_of_mem hv) (Prod.mk.inj hq).1

end

end Verif.Schema
