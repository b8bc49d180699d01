import Verif.Props.DocumentLicences
import Verif.Props.SchemaReports

/-!
# C99: aggregated nodes and storages of documents from end to end
-/

namespace Verif.EndToEnd

open Verif.State Verif.Solver Verif.Time Verif.Simulation
open Verif.Coupled (World)
open Verif.Load (Story Side SNum SHolds)
open Verif.Schema (Frag Core UMetric Decl SNode VNode RefIs outOf into nameFlow)

section
variable {D : Document} {E : Setting} {F : Frag} {C : Core} (h : Schema.Built D.numbers D.net F C)

include h in
/-- The aggregated node of a virtual node of the document, and the flows of what it refers to. -/
theorem group_flows {v : VNode} (hv : v ∈ D.net.virtualNodes) {refs hi lo rel} (hb : v.body = .aggregated refs hi lo rel)
    (hriv : ∀ r ∈ refs, ∀ x ∈ D.net.nodes, ∀ b, x.name = r.name → x.body = .river b → r.component.getD .outflow = .outflow →
      b.loss = none ∨ b.routing = none) :
    ∃ sets : List (List Topology.Name), List.Forall₂ (fun r S => D.net.refNodes r = .ok S) refs sets ∧
      (∀ S ∈ sets, ∀ x ∈ S, x ∈ F.nodes.map (·.name)) ∧
      (⟨(v.name, none), sets, lo, hi, rel.map Schema.SRelationship.load⟩ : Schema.AggDecl) ∈ F.aggs ∧
      ∀ st f, Allowed C.model st f →
        List.Forall₂ (RefIs D.numbers D.net F C st f) refs (sets.map fun S => (S.map (nameFlow F f)).sum) := by
  obtain ⟨sets, hsets, hagg⟩ := Schema.virtual_agg h hv hb
  obtain ⟨sets', hsets', hin, -⟩ := Schema.agg_report h (fun _ => 0) hv hb
  have : sets' = sets := by
    clear hin hagg hb hriv
    induction hsets generalizing sets' with
    | nil => cases hsets'; rfl
    | cons e1 _ ih =>
      cases hsets' with
      | cons e2 hs =>
        rw [e1, Except.ok.injEq] at e2
        rw [e2, ih _ hs]
  subst this
  exact ⟨sets', hsets, hin, hagg, fun st f ha => Schema.refs_are h ha hsets hin hriv⟩

variable {n : Nat} {S : Story Area} {f : Nat → Nat → ℚ} {st : Nat → StepState} (H : Happens D E F C n S f st)
include h H

/-- **C99 (limits of aggregated nodes).** The components that an aggregated node refers to together carry, in every step, between its minimum and its
maximum flow, as the metrics of the document have them in that step, and their flows meet its relationship. -/
theorem C99_group {v : VNode} (hv : v ∈ D.net.virtualNodes) {refs hi lo rel} (hb : v.body = .aggregated refs hi lo rel)
    (hriv : ∀ r ∈ refs, ∀ x ∈ D.net.nodes, ∀ b, x.name = r.name → x.body = .river b → r.component.getD .outflow = .outflow →
      b.loss = none ∨ b.routing = none) (t : Nat) (ht : t < n) :
    ∃ qs : List ℚ, List.Forall₂ (RefIs D.numbers D.net F C (st t) (f t)) refs qs ∧
      (∃ q, Valued D (D.args E F C) S t lo 0 q ∧ q ≤ qs.sum) ∧ (∃ q, Valued D (D.args E F C) S t hi f64MAX q ∧ qs.sum ≤ q) ∧
      ∀ r, rel = some r → r.Demands (st t).metric qs := by
  obtain ⟨qs, h1, h2, h3, h4⟩ := Schema.C69_aggregated h (H.allowed t ht) hv hb hriv
  obtain ⟨h5, h6⟩ := limits H ht ⟨h2, h3⟩
  exact ⟨qs, h1, h5, h6, h4⟩

/-- **C99 (outflow of aggregated nodes).** A metric of the outflow of an aggregated node, which is also its default, shows at the end of a step what the
components that it refers to carry in it together, and before the allocation what they carried in the step before, if all of these leave their
nodes. -/
theorem C99_group_outflow {v : VNode} (hv : v ∈ D.net.virtualNodes) {refs hi lo rel} (hb : v.body = .aggregated refs hi lo rel)
    (hriv : ∀ r ∈ refs, ∀ x ∈ D.net.nodes, ∀ b, x.name = r.name → x.body = .river b → r.component.getD .outflow = .outflow →
      b.loss = none ∨ b.routing = none)
    (hout : ∀ r ∈ refs, ∀ x ∈ D.net.nodes, x.name = r.name → (x.body.component r.component).Enters = false) :
    ∃ qs : Nat → List ℚ, (∀ t < n, List.Forall₂ (RefIs D.numbers D.net F C (st t) (f t)) refs (qs t)) ∧
      ∀ r, D.refs r = .virtual v.name (some .outflow) ∨ D.refs r = .virtual v.name none → ∀ t < n, ∀ o q,
        (SNum (D.args E F C) S .late t o (.component r) q ↔ q = (qs t).sum) ∧
        ∀ s, t = s + 1 → (SNum (D.args E F C) S .early t o (.component r) q ↔ q = (qs s).sum) := by
  obtain ⟨sets, hs, hin, hagg, hrefs⟩ := group_flows h hv hb hriv
  refine ⟨fun t => sets.map fun S => (S.map (nameFlow F (f t))).sum, fun t ht => hrefs _ _ (H.allowed t ht), ?_⟩
  have hsum : ∀ t < n, (sets.map fun S => (S.map (nameFlow F (f t))).sum).sum = (sets.flatten.map (outOf F (f t))).sum := by
    intro t ht
    have : sets.map (fun S => (S.map (nameFlow F (f t))).sum) = sets.map (fun S => (S.map (outOf F (f t))).sum) := by
      apply List.map_congr_left
      intro S hS
      obtain ⟨r, hr, hrS⟩ := Schema.forall₂_mem' hs hS
      obtain ⟨x, hm, hname, he⟩ := Schema.ref_flow h (f t) (H.allowed t ht) hrS (hin S hS)
      rw [he, hout r hr x hm hname]
      simp
    rw [this, List.map_flatten, List.sum_flatten, List.map_map]
    rfl
  intro r hr t ht o q
  have hn : Names D r (.outFlow (v.name, none)) := by
    rcases hr with hr | hr <;> exact names h hv hr (by simp only [virtualMetric, hb, Option.getD_some, Option.getD_none])
  constructor
  · rw [hsum t ht]
    exact (H.aggregated t ht r _ hagg .late o q).2 hn
  · rintro s rfl
    rw [hsum s (by omega)]
    exact (H.aggregated _ ht r _ hagg .early o q).2 hn

/-- **C99 (inflow of aggregated nodes).** The same of the inflow, if all components enter their nodes. -/
theorem C99_group_inflow {v : VNode} (hv : v ∈ D.net.virtualNodes) {refs hi lo rel} (hb : v.body = .aggregated refs hi lo rel)
    (hent : ∀ r ∈ refs, ∀ x ∈ D.net.nodes, x.name = r.name → (x.body.component r.component).Enters = true) :
    ∃ qs : Nat → List ℚ, (∀ t < n, List.Forall₂ (RefIs D.numbers D.net F C (st t) (f t)) refs (qs t)) ∧
      ∀ r, D.refs r = .virtual v.name (some .inflow) → ∀ t < n, ∀ o q,
        (SNum (D.args E F C) S .late t o (.component r) q ↔ q = (qs t).sum) ∧
        ∀ s, t = s + 1 → (SNum (D.args E F C) S .early t o (.component r) q ↔ q = (qs s).sum) := by
  obtain ⟨sets, hs, hin, hagg, hrefs⟩ := group_flows h hv hb (by
    intro r hr x hm b hname hb hc
    have := hent r hr x hm hname
    rw [hb, show (Schema.Body.river b).component r.component = r.component.getD .outflow from by cases r.component <;> rfl, hc] at this
    cases this)
  refine ⟨fun t => sets.map fun S => (S.map (nameFlow F (f t))).sum, fun t ht => hrefs _ _ (H.allowed t ht), ?_⟩
  have hsum : ∀ t < n, (sets.map fun S => (S.map (nameFlow F (f t))).sum).sum = (sets.flatten.map (into F (f t))).sum := by
    intro t ht
    have : sets.map (fun S => (S.map (nameFlow F (f t))).sum) = sets.map (fun S => (S.map (into F (f t))).sum) := by
      apply List.map_congr_left
      intro S hS
      obtain ⟨r, hr, hrS⟩ := Schema.forall₂_mem' hs hS
      obtain ⟨x, hm, hname, he⟩ := Schema.ref_flow h (f t) (H.allowed t ht) hrS (hin S hS)
      rw [he, hent r hr x hm hname]
      simp
    rw [this, List.map_flatten, List.sum_flatten, List.map_map]
    rfl
  intro r hr t ht o q
  have hn : Names D r (.inFlow (v.name, none)) := names h hv hr (by simp only [virtualMetric, hb, Option.getD_some])
  constructor
  · rw [hsum t ht]
    exact (H.aggregated t ht r _ hagg .late o q).1 hn
  · rintro s rfl
    rw [hsum s (by omega)]
    exact (H.aggregated _ ht r _ hagg .early o q).1 hn

/-- **C99, refuted (default of aggregated nodes).** The default metric of an aggregated node of outputs shows 0 in every step, whatever the outputs
receive. -/
theorem C99_group_outputs_refuted {v : VNode} (hv : v ∈ D.net.virtualNodes) {refs hi lo rel} (hb : v.body = .aggregated refs hi lo rel)
    (hout : ∀ r ∈ refs, ∀ x ∈ D.net.nodes, x.name = r.name → ∃ b, x.body = .output b) {r : String} (hr : D.refs r = .virtual v.name none)
    (t : Nat) (ht : t < n) (o : Option String) (q : ℚ) : SNum (D.args E F C) S .late t o (.component r) q ↔ q = 0 := by
  obtain ⟨sets, hs, hin, hagg, hrefs⟩ := group_flows h hv hb (by
    intro r hr x hm b hname hb
    obtain ⟨b', hb'⟩ := hout r hr x hm hname
    rw [hb] at hb'
    cases hb')
  rw [(H.aggregated t ht r _ hagg .late o q).2 (names h hv hr (by simp only [virtualMetric, hb, Option.getD_none]))]
  have : (sets.flatten.map (outOf F (f t))).sum = 0 := by
    apply List.sum_eq_zero
    intro q hq
    obtain ⟨y, hy, rfl⟩ := List.mem_map.1 hq
    obtain ⟨T, hT, hyT⟩ := List.mem_flatten.1 hy
    obtain ⟨r', hr', hrS⟩ := Schema.forall₂_mem' hs hT
    obtain ⟨x, hx, hf⟩ := Schema.bind_ok hrS
    obtain ⟨hm, hname⟩ := Schema.node?_ok hx
    obtain ⟨b, hbo⟩ := hout r' hr' x hm hname
    obtain ⟨G, hG⟩ := Schema.frag_of_mem h.compiled hm
    obtain ⟨d, hd, rfl⟩ := List.mem_map.1 (hin T hT y hyT)
    have hdG := Schema.node_owner h hm hG hd (Schema.flow_owner hf _ hyT)
    refine Schema.outOf_output h.built hd ?_ (f t)
    unfold SNode.frag at hG
    simp only [hbo, Except.ok.injEq] at hG
    subst hG
    simp only [Schema.FlowN.outputFrag, List.mem_singleton] at hdG
    rw [hdG]
  rw [show (_ : Schema.AggDecl).nodes = sets from rfl, show flowsAt f t .late = f t from rfl, this]

/-- **C99 (aggregated storages).** A metric of the volume of an aggregated storage shows the total of the volumes of its storages: at the end of a step
those at its end, and before the allocation those of the step before. A metric of its proportional volume shows the share of this total in the total of the
maximum volumes: of this step at its end, and of the step before until then. -/
theorem C99_stores {v : VNode} (hv : v ∈ D.net.virtualNodes) {nodes : List SNode} (hb : v.body = .aggregatedStorage (nodes.map (·.name)))
    (hm : ∀ x ∈ nodes, x ∈ D.net.nodes) {bs : List Schema.StorageN} (hbs : List.Forall₂ (fun (x : SNode) b => x.body = .storage b) nodes bs) :
    ∃ vols : List (Nat → ℚ), List.Forall₂ (fun (p : SNode × Schema.StorageN) vol => StoreCourse D E F C n S f p.1 p.2 vol) (nodes.zip bs) vols ∧
      (∀ r, D.refs r = .virtual v.name (some .volume) ∨ D.refs r = .virtual v.name none → ∀ t < n, ∀ o q,
        (SNum (D.args E F C) S .early t o (.component r) q ↔ q = (vols.map (· t)).sum) ∧
        (SNum (D.args E F C) S .late t o (.component r) q ↔ q = (vols.map (· (t + 1))).sum)) ∧
      ∀ r, D.refs r = .virtual v.name (some .proportionalVolume) → ∀ t < n, ∃ nows befores : List ℚ,
        List.Forall₂ (fun (b : Schema.StorageN) q => Valued D (D.args E F C) S t b.maxVolume f64MAX q) bs nows ∧
        List.Forall₂ (fun (b : Schema.StorageN) q => Valued D (D.args E F C) S (t - 1) b.maxVolume f64MAX q) bs befores ∧ ∀ o q,
          (SNum (D.args E F C) S .early t o (.component r) q ↔ q = Coupled.share (vols.map (· t)).sum befores.sum) ∧
          (SNum (D.args E F C) S .late t o (.component r) q ↔ q = Coupled.share (vols.map (· (t + 1))).sum nows.sum) := by
  obtain ⟨sets, hs, hmem⟩ : ∃ sets, List.Forall₂ (fun x S => (D.net.node? x >>= SNode.storageNodes) = .ok S) (nodes.map (·.name)) sets ∧
      (⟨(v.name, none), sets.flatten⟩ : Schema.StoreDecl) ∈ F.stores := by
    obtain ⟨Gs, Vs, Es, hparts⟩ := Schema.compile_parts h.compiled
    obtain ⟨V, hV, hvV⟩ := Schema.forall₂_mem hparts.virtuals hv
    unfold Schema.Net.virtualFrag at hvV
    simp only [hb] at hvV
    obtain ⟨sets, hs0, hvV'⟩ := Schema.bind_ok hvV
    simp only [pure, Except.pure, Except.ok.injEq] at hvV'
    refine ⟨sets, (Schema.each_ok _ _ _).1 hs0, ?_⟩
    rw [hparts.stores]
    apply List.mem_append_right
    rw [List.mem_flatMap]
    exact ⟨V, hV, by rw [← hvV']; simp⟩
  let core : SNode → Schema.StorageN → Decl := fun x b =>
    ⟨(x.name, none), .storage, Schema.volumeData b.cost b.minVolume b.maxVolume, some b.initial.toInitial⟩
  have hflat : sets.flatten = nodes.map fun x => (x.name, none) := by
    have hn := (Schema.validate_ok D.net (Schema.compile_parts h.compiled).choose_spec.choose_spec.choose_spec.valid).1
    clear hmem hb
    induction hbs generalizing sets with
    | nil => cases hs; rfl
    | @cons x b xs bs hxb _ ih =>
      cases hs with
      | cons e1 hs =>
        rw [Schema.node?_of_mem hn (hm x List.mem_cons_self)] at e1
        simp only [Bind.bind, Except.bind, SNode.storageNodes, hxb, Except.ok.injEq] at e1
        rw [← e1, List.flatten_cons, ih (fun y hy => hm y (List.mem_cons_of_mem _ hy)) _ hs]
        rfl
  obtain ⟨vols, hvols⟩ : ∃ vols : List (Nat → ℚ), List.Forall₂ (fun (p : SNode × Schema.StorageN) vol =>
      (∀ t < n, Schema.stored F (st t) (p.1.name, none) = some (vol t)) ∧ StoreCourse D E F C n S f p.1 p.2 vol) (nodes.zip bs) vols := by
    clear hs hmem hb hflat
    induction hbs with
    | nil => exact ⟨[], .nil⟩
    | @cons x b xs bs hxb _ ih =>
      obtain ⟨vols, hv⟩ := ih fun y hy => hm y (List.mem_cons_of_mem _ hy)
      obtain ⟨vol, h1⟩ := storage_course h H (hm x List.mem_cons_self) hxb
      exact ⟨vol :: vols, .cons h1 hv⟩
  have hall : ∀ t < n, ∃ nows befores : List ℚ,
      List.Forall₂ (fun (b : Schema.StorageN) q => Valued D (D.args E F C) S t b.maxVolume f64MAX q) bs nows ∧
      List.Forall₂ (fun (b : Schema.StorageN) q => Valued D (D.args E F C) S (t - 1) b.maxVolume f64MAX q) bs befores ∧ ∀ r,
      (Names D r (.storeVolume (v.name, none)) → ∀ o q,
        (SNum (D.args E F C) S .early t o (.component r) q ↔ q = (vols.map (· t)).sum) ∧
        (SNum (D.args E F C) S .late t o (.component r) q ↔ q = (vols.map (· (t + 1))).sum)) ∧
      (Names D r (.storeShare (v.name, none)) → ∀ o q,
        (SNum (D.args E F C) S .early t o (.component r) q ↔ q = Coupled.share (vols.map (· t)).sum befores.sum) ∧
        (SNum (D.args E F C) S .late t o (.component r) q ↔ q = Coupled.share (vols.map (· (t + 1))).sum nows.sum)) := by
    intro t ht
    obtain ⟨vs, nows, befores, h1, h4, h5, h6⟩ := H.stores t ht _ hmem (List.zipWith core nodes bs) (by
      simp only
      rw [hflat]
      clear hs hmem hb hflat hvols
      induction hbs with
      | nil => exact .nil
      | @cons x b xs bs hxb _ ih =>
        exact .cons ⟨(storage_core (f := f) h (hm x List.mem_cons_self) hxb).1, rfl, rfl⟩ (ih fun y hy => hm y (List.mem_cons_of_mem _ hy)))
    have hboth : vs = vols.map (· t) ∧
        List.zipWith (fun (d : Decl) v => v + (E.time t).days * Schema.coreFlow F (f t) d) (List.zipWith core nodes bs) vs = vols.map (· (t + 1)) := by
      clear hs hmem hb hflat h4 h5 h6
      induction hbs generalizing vols vs with
      | nil => cases hvols; cases h1; exact ⟨rfl, rfl⟩
      | @cons x b xs bs hxb _ ih =>
        cases hvols with
        | cons e1 hvols =>
          cases h1 with
          | cons e2 h1 =>
            obtain ⟨g1, g2⟩ := ih (fun y hy => hm y (List.mem_cons_of_mem _ hy)) _ hvols _ h1
            have e3 : some _ = some _ := e2.symm.trans (e1.1 t ht)
            obtain rfl := Option.some.inj e3
            have hf : Schema.coreFlow F (f t) (core x b) = _ := (storage_core (f := f) h (hm x List.mem_cons_self) hxb).2 t
            refine ⟨by rw [List.map_cons, ← g1], ?_⟩
            rw [List.zipWith_cons_cons, List.zipWith_cons_cons, g2, List.map_cons, hf, e1.2.change t ht]
    have hvalued : ∀ s < n, ∀ qs : List ℚ, List.Forall₂ (fun (d : Decl) q => ValueIs (st s).metric d.data.maxVolume f64MAX q) (List.zipWith core nodes bs) qs →
        List.Forall₂ (fun (b : Schema.StorageN) q => Valued D (D.args E F C) S s b.maxVolume f64MAX q) bs qs := by
      intro s hs' qs hq
      clear hs hmem hb hflat hvols h1 h4 h5 h6 hboth hm
      induction hbs generalizing qs with
      | nil => cases hq; exact .nil
      | @cons x b xs bs hxb _ ih =>
        cases hq with
        | cons e1 hq => exact .cons (valued H hs' e1) (ih _ hq)
    refine ⟨nows, befores, hvalued t ht _ h4, hvalued (t - 1) (by omega) _ h5, fun r => ?_⟩
    rw [← hboth.1, ← hboth.2]
    exact ⟨fun hn o q => ⟨((h6 r).1 (.inl hn)).1 o q, ((h6 r).1 (.inl hn)).2 o q⟩, fun hn o q => ⟨((h6 r).2 (.inl hn)).1 o q, ((h6 r).2 (.inl hn)).2 o q⟩⟩
  refine ⟨vols, hvols.imp fun _ _ e => e.2, fun r hr t ht => ?_, fun r hr t ht => ?_⟩
  · obtain ⟨nows, befores, h2, h3, h1⟩ := hall t ht
    exact (h1 r).1 (by rcases hr with hr | hr <;> exact names h hv hr (by simp only [virtualMetric, hb, Option.getD_some, Option.getD_none]))
  · obtain ⟨nows, befores, h1, h2, h3⟩ := hall t ht
    exact ⟨nows, befores, h1, h2, (h3 r).2 (names h hv hr (by simp only [virtualMetric, hb, Option.getD_some]))⟩

end

end Verif.EndToEnd
