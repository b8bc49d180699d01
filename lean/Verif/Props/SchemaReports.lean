import Verif.Props.SchemaLicences
import Verif.Props.SchemaPieces

/-!
# C72: reports of aggregated nodes and aggregated storages

The flow an aggregated node reports is the sum of the flows it constrains; the volume an aggregated storage reports is the sum of the volumes
of its nodes.
-/

namespace Verif.Schema

open Verif.Topology (Name EdgeDecl)
open Verif.Solver (Metric AtLeast AtMost f64MAX)

/-! ## Names -/

theorem firstDuplicate_none (seen ns : List Name) (h : firstDuplicate seen ns = none) : ns.Nodup ∧ ∀ n ∈ ns, n ∉ seen := by
  induction ns generalizing seen with
  | nil => simp
  | cons n ns ih =>
    unfold firstDuplicate at h
    split at h
    · cases h
    · rename_i hn
      obtain ⟨h1, h2⟩ := ih _ h
      refine ⟨List.nodup_cons.2 ⟨fun hm => h2 n hm List.mem_cons_self, h1⟩, ?_⟩
      intro m hm
      rcases List.mem_cons.1 hm with rfl | hm
      · exact hn
      · exact fun hs => h2 m hm (List.mem_cons_of_mem _ hs)

theorem agg_names_nodup {F : Frag} {C : Core} (h : F.build = .ok C) : (F.aggs.map (·.name)).Nodup ∧ (F.stores.map (·.name)).Nodup := by
  unfold Frag.build at h
  cases hb : F.builder.build with
  | error e => simp [hb] at h
  | ok net =>
    simp only [hb] at h
    cases h1 : firstDuplicate [] (F.aggs.map (·.name)) with
    | some n => simp [h1] at h
    | none =>
      cases h2 : firstDuplicate [] (F.stores.map (·.name)) with
      | some n => simp [h1, h2] at h
      | none => exact ⟨(firstDuplicate_none _ _ h1).1, (firstDuplicate_none _ _ h2).1⟩

theorem findIdx_name {α : Type} (g : α → Name) (l : List α) (hn : (l.map g).Nodup) {a : α} (ha : a ∈ l) :
    ∃ k, l.findIdx? (fun s => decide (g s = g a)) = some k ∧ l[k]? = some a := by
  induction l with
  | nil => cases ha
  | cons x xs ih =>
    rw [List.map_cons, List.nodup_cons] at hn
    rcases List.mem_cons.1 ha with rfl | ha
    · exact ⟨0, by simp [List.findIdx?_cons], rfl⟩
    · obtain ⟨k, h1, h2⟩ := ih hn.2 ha
      have hne : g x ≠ g a := fun he => hn.1 (he ▸ List.mem_map_of_mem ha)
      exact ⟨k + 1, by simp [List.findIdx?_cons, hne, h1], by simpa using h2⟩

theorem sumAll_map_some (vs : List ℚ) : sumAll (vs.map some) = some vs.sum := by
  have := sumAll_some vs some id (by simp)
  simpa using this

/-! ## Flows -/

theorem step_links (x : String) (ss : List FlowN) (i : Nat) : ∀ d ∈ stepLoop x ss i, d.kind = .link := by
  induction ss generalizing i with
  | nil => simp [stepLoop]
  | cons s ss ih =>
    intro d hd
    rcases List.mem_cons.1 hd with rfl | hd
    · rfl
    · exact ih _ d hd

theorem split_links (x : String) (ss : List Split) (i : Nat) : ∀ d ∈ (splitLoop x ss i).nodes, d.kind = .link := by
  induction ss generalizing i with
  | nil => simp [splitLoop]
  | cons s ss ih =>
    intro d hd
    rcases List.mem_append.1 hd with hd | hd
    · rw [List.mem_singleton] at hd; subst hd; rfl
    · exact ih _ d hd

/-- Components of what enters a node or is lost; the others leave it. -/
def Comp.Enters : Comp → Bool
  | .inflow | .loss => true
  | _ => false

/-- The core nodes meant by a component. -/
theorem flow_kinds {P : ParamNo} {n : SNode} {G : Frag} (hG : n.frag P = .ok G) {c : Option Comp} {S : List Name} (hS : n.flowNodes c = .ok S) :
    ∀ d ∈ G.nodes, d.name ∈ S → d.kind = .link ∨ (d.kind = if (n.body.component c).Enters then .output else .input) := by
  unfold SNode.frag at hG
  unfold SNode.flowNodes at hS
  cases hb : n.body with
  | input b =>
    simp only [hb, Except.ok.injEq] at hG hS
    subst hG
    rw [show (Body.input b).component c = c.getD .outflow from by cases c <;> rfl]
    split at hS <;> simp only [Except.ok.injEq, reduceCtorEq] at hS
    rename_i hk; rw [hk]
    simp [FlowN.inputFrag, Comp.Enters]
  | catchment b =>
    simp only [hb, Except.ok.injEq] at hG hS
    subst hG
    rw [show (Body.catchment b).component c = c.getD .outflow from by cases c <;> rfl]
    split at hS <;> simp only [Except.ok.injEq, reduceCtorEq] at hS
    rename_i hk; rw [hk]
    simp [CatchmentN.frag, Comp.Enters]
  | output b =>
    simp only [hb, Except.ok.injEq] at hG hS
    subst hG
    rw [show (Body.output b).component c = c.getD .inflow from by cases c <;> rfl]
    split at hS <;> simp only [Except.ok.injEq, reduceCtorEq] at hS
    rename_i hk; rw [hk]
    simp [FlowN.outputFrag, Comp.Enters]
  | link b =>
    simp only [hb, Except.ok.injEq] at hG
    subst hG
    intro d hd _
    left
    unfold LinkN.frag at hd
    cases h1 : b.softMin <;> cases h2 : b.softMax <;> simp only [h1, h2, List.mem_cons, List.not_mem_nil, or_false] at hd <;>
      rcases hd with rfl | hd <;> (try rfl) <;> (try (rcases hd with rfl | rfl <;> rfl))
  | turbine b =>
    simp only [hb, Except.ok.injEq] at hG
    subst hG
    intro d hd _
    left
    unfold TurbineN.frag at hd
    simp only [List.mem_singleton] at hd
    subst hd; rfl
  | riverGauge b =>
    simp only [hb, Except.ok.injEq] at hG
    subst hG
    intro d hd _
    left
    simp only [GaugeN.frag, List.mem_cons, List.not_mem_nil, or_false] at hd
    rcases hd with rfl | rfl <;> rfl
  | pieceLink b =>
    simp only [hb, Except.ok.injEq] at hG
    subst hG
    intro d hd _
    left
    exact step_links _ _ _ d hd
  | riverSplit b =>
    simp only [hb, Except.ok.injEq] at hG
    subst hG
    intro d hd _
    left
    simp only [SplitN.frag, Frag.add, List.mem_append, List.mem_cons, List.not_mem_nil, or_false] at hd
    rcases hd with hd | hd
    · exact split_links _ _ _ d hd
    · rcases hd with rfl | rfl <;> rfl
  | storage b => simp [hb] at hS
  | pieceStore b => simp [hb] at hS
  | placeholder => simp [hb] at hS
  | abstraction b =>
    simp only [hb] at hG
    intro d hd _
    left
    unfold AbstractionN.frag at hG
    cases hm : b.mrf with
    | some m =>
      simp only [hm, Except.ok.injEq] at hG
      subst hG
      simp only [List.mem_cons, List.not_mem_nil, or_false] at hd
      rcases hd with rfl | rfl | rfl <;> rfl
    | none =>
      simp only [hm] at hG
      split at hG
      · cases hG
      · simp only [Except.ok.injEq] at hG
        subst hG
        simp only [List.mem_cons, List.not_mem_nil, or_false] at hd
        rcases hd with rfl | rfl <;> rfl
  | delay b =>
    simp only [hb, Except.ok.injEq] at hG hS
    subst hG
    rw [show (Body.delay b).component c = c.getD .outflow from by cases c <;> rfl]
    split at hS <;> simp only [Except.ok.injEq, reduceCtorEq] at hS <;> rename_i hk <;> rw [hk] <;> subst hS <;>
      simp [DelayN.frag, Comp.Enters]
  | lossLink b =>
    simp only [hb, Except.ok.injEq] at hG hS
    subst hG
    rw [show (Body.lossLink b).component c = c.getD .outflow from by cases c <;> rfl]
    unfold LossLinkN.frag grossNames at *
    split at hS <;> simp only [Except.ok.injEq, reduceCtorEq] at hS <;> rename_i hk <;> rw [hk] <;> subst hS <;>
      cases b.loss <;> simp [Comp.Enters]
  | works b =>
    simp only [hb, Except.ok.injEq] at hG hS
    subst hG
    rw [show (Body.works b).component c = c.getD .outflow from by cases c <;> rfl]
    unfold WorksN.frag grossNames at *
    split at hS <;> simp only [Except.ok.injEq, reduceCtorEq] at hS <;> rename_i hk <;> rw [hk] <;> subst hS <;>
      cases b.loss with
      | none => simp [Comp.Enters]
      | some l => simp only; cases l.load <;> simp [Comp.Enters]
  | river b =>
    simp only [hb, Except.ok.injEq] at hG hS
    subst hG
    rw [show (Body.river b).component c = c.getD .outflow from by cases c <;> rfl]
    have h1 : ∀ l, (RiverN.lossFrag n.name l).1.kind = .output ∧ (RiverN.lossFrag n.name l).1.name = (n.name, some "loss") := by
      intro l; unfold RiverN.lossFrag; cases l.load <;> exact ⟨rfl, rfl⟩
    have h2 : ∀ r, (RiverN.routingFrag P n.name r).1.kind = .input ∧ (RiverN.routingFrag P n.name r).1.name = (n.name, some "outflow") := by
      intro r; cases r <;> exact ⟨rfl, rfl⟩
    unfold RiverN.frag
    split at hS <;> simp only [Except.ok.injEq, reduceCtorEq] at hS <;> rename_i hk <;> rw [hk] <;> subst hS <;>
      cases b.loss <;> cases b.routing <;> simp [Comp.Enters, h1, h2]
  | reservoir b =>
    simp only [hb] at hG hS
    rw [show (Body.reservoir b).component c = c.getD .compensation from by cases c <;> rfl]
    unfold ReservoirN.frag at hG
    split at hG
    · cases hG
    · split at hG
      · cases hG
      · simp only [Except.ok.injEq] at hG
        subst hG
        intro d hd hx
        simp only [Frag.add, List.mem_append, StorageN.frag, ReservoirN.releaseFrag, List.mem_singleton] at hd
        split at hS <;> simp only [Except.ok.injEq, reduceCtorEq] at hS <;> rename_i hk <;> rw [hk] <;> subst hS <;>
          rw [List.mem_singleton] at hx <;>
          rcases hd with ((hd | (hd | hd) | hd) | hd) | hd <;>
          first
          | (subst hd; simp at hx)
          | (revert hd; cases b.compensation <;> simp [Comp.Enters] <;> (try rintro rfl) <;> simp at hx ⊢)
          | (revert hd; cases b.spill <;> simp [Comp.Enters] <;> (try rintro rfl) <;> simp at hx ⊢)
          | (revert hd; split <;> simp; done)
          | (revert hd; cases b.leakage <;> simp [Comp.Enters, ReservoirN.leakFrag] <;> (try rintro rfl) <;> simp at hx ⊢)
          | (revert hd; cases b.area <;> cases b.rainfall <;> cases b.evaporation <;> simp [Comp.Enters, ReservoirN.rainFrag, ReservoirN.evapFrag] <;>
              (try rintro rfl) <;> (try rintro (rfl | rfl)) <;> simp at hx ⊢)

theorem flow_owner {n : SNode} {c : Option Comp} {S : List Name} (hS : n.flowNodes c = .ok S) : ∀ x ∈ S, x.1 = n.name := by
  unfold SNode.flowNodes at hS
  have gross : ∀ l : Option Loss, ∀ x ∈ grossNames n.name l, x.1 = n.name := by
    intro l x hx
    unfold grossNames at hx
    cases l <;> simp at hx <;> (rcases hx with rfl | rfl <;> rfl)
  cases hb : n.body <;> simp only [hb, reduceCtorEq] at hS <;> split at hS <;> simp only [Except.ok.injEq, reduceCtorEq] at hS <;> subst hS
  all_goals first
    | exact gross _
    | (intro x hx; simp at hx; rcases hx with h | h | h <;> simp [h])
    | (intro x hx; simp at hx; rcases hx with h | h <;> simp [h])
    | (intro x hx; simp [LinkN.names] at hx; rcases hx with rfl | ⟨_, rfl⟩ | ⟨_, rfl⟩ <;> rfl)
    | (intro x hx; simp [PieceLinkN.names, stepName] at hx; obtain ⟨_, _, rfl⟩ := hx; rfl)
    | (intro x hx; simp [SplitN.names, splitName] at hx; rcases hx with rfl | rfl | ⟨_, _, rfl⟩ <;> rfl)
    | (intro x hx; split at hx <;> simp at hx <;> (rcases hx with rfl | rfl <;> rfl))

theorem forall₂_getElem? {α β : Type} {R : α → β → Prop} {l : List α} {l' : List β} (h : List.Forall₂ R l l') {k : Nat} {a : α}
    (hk : l[k]? = some a) : ∃ b, l'[k]? = some b ∧ R a b := by
  induction h generalizing k with
  | nil => cases hk
  | cons hr _ ih =>
    cases k with
    | zero => simp only [List.getElem?_cons_zero, Option.some.injEq] at hk; subst hk; exact ⟨_, rfl, hr⟩
    | succ k => exact ih (by simpa using hk)

section
variable {P : ParamNo} {N : Net} {F : Frag} {C : Core} (h : Built P N F C)
include h

theorem flow_indices (f : Nat → ℚ) {ns : List Name} {is : List Nat} (hf : List.Forall₂ (fun n i => F.index? n = .ok i) ns is) :
    is.map (inFlowAt C.model.net f) = (ns.map (into F f)).map some ∧ is.map (outFlowAt C.model.net f) = (ns.map (outOf F f)).map some := by
  induction hf with
  | nil => exact ⟨rfl, rfl⟩
  | cons hab _ ih =>
    obtain ⟨d, hd, rfl⟩ := (index_ok (names_nodup h.built) _ _).1 hab
    obtain ⟨t, ht, _, _, _, h1, h2, _⟩ := nodeFlow_at h.built f hd
    simp only [List.map_cons, ih.1, ih.2]
    unfold inFlowAt outFlowAt
    simp only [ht, Option.map_some, h1, h2, and_self]

/-- What an aggregated node reports. -/
theorem agg_report (f : Nat → ℚ) {v : VNode} (hv : v ∈ N.virtualNodes) {refs hi lo rel} (hb : v.body = .aggregated refs hi lo rel) :
    ∃ sets, List.Forall₂ (fun r S => N.refNodes r = .ok S) refs sets ∧ (∀ S ∈ sets, ∀ x ∈ S, x ∈ F.nodes.map (·.name)) ∧
      aggReport F C f (v.name, none) none = .ok (some ((sets.map (fun S => (S.map (outOf F f)).sum)).sum)) ∧
      aggReport F C f (v.name, none) (some .outflow) = .ok (some ((sets.map (fun S => (S.map (outOf F f)).sum)).sum)) ∧
      aggReport F C f (v.name, none) (some .inflow) = .ok (some ((sets.map (fun S => (S.map (into F f)).sum)).sum)) := by
  obtain ⟨sets, hsets, hagg⟩ := virtual_agg h hv hb
  obtain ⟨k, hk1, hk2⟩ := findIdx_name (·.name) F.aggs (agg_names_nodup h.built).1 hagg
  obtain ⟨a, ha1, ha2⟩ := forall₂_getElem? (build_ok F C h.built).2.2.1 hk2
  simp only at hk1
  unfold Frag.resolveAgg at ha2
  cases hs : eachB (eachB F.index?) sets with
  | error e => simp [hs, Bind.bind, Except.bind] at ha2
  | ok iss =>
    simp only [hs, Bind.bind, Except.bind, Pure.pure, Except.pure, Except.ok.injEq] at ha2
    have hf : List.Forall₂ (fun ns is => List.Forall₂ (fun n i => F.index? n = .ok i) ns is) sets iss :=
      ((eachB_ok _ _ _).1 hs).imp (fun _ _ h => (eachB_ok _ _ _).1 h)
    have hflat : List.Forall₂ (fun n i => F.index? n = .ok i) sets.flatten iss.flatten := by
      clear hs ha1 ha2 hsets hagg hk2 hk1
      induction hf with
      | nil => exact .nil
      | cons h1 _ ih => exact List.rel_append h1 ih
    have hsum : ∀ g : Name → ℚ, (sets.flatten.map g).sum = (sets.map (fun S => (S.map g).sum)).sum := by
      intro g
      clear hf hs ha1 ha2 hsets hagg hk2 hk1 hflat
      induction sets with
      | nil => rfl
      | cons S sets ih => rw [List.flatten_cons, List.map_append, List.sum_append, ih]; rfl
    have hfl := flow_indices h f hflat
    have ha3 : a.nodes = iss := by rw [← ha2]
    have e1 : sumAll (iss.flatten.map (outFlowAt C.model.net f)) = some ((sets.map (fun S => (S.map (outOf F f)).sum)).sum) := by
      rw [hfl.2, sumAll_map_some, hsum]
    have e2 : sumAll (iss.flatten.map (inFlowAt C.model.net f)) = some ((sets.map (fun S => (S.map (into F f)).sum)).sum) := by
      rw [hfl.1, sumAll_map_some, hsum]
    refine ⟨sets, hsets, ?_, ?_, ?_, ?_⟩
    · intro S hS x hx
      obtain ⟨is, _, his⟩ := forall₂_mem hf hS
      obtain ⟨i, _, hi⟩ := forall₂_mem his hx
      obtain ⟨d, hd, hdn⟩ := (index_ok (names_nodup h.built) x i).1 hi
      exact List.mem_map.2 ⟨d, List.mem_of_getElem? hd, hdn⟩
    all_goals
      unfold aggReport
      simp only [Option.getD_none, Option.getD_some, hk1, ha1, ha3, Option.bind_eq_bind, Option.bind_some, e1, e2]

/-- The flow of the core nodes of a reference, as entering or leaving them. -/
theorem ref_flow (f : Nat → ℚ) {st : Solver.StepState} (ha : Solver.Allowed C.model st f) {r : Ref} {S : List Name} (hS : N.refNodes r = .ok S)
    (hin : ∀ x ∈ S, x ∈ F.nodes.map (·.name)) :
    ∃ n ∈ N.nodes, n.name = r.name ∧ S.map (nameFlow F f) = S.map (if (n.body.component r.component).Enters then into F f else outOf F f) := by
  obtain ⟨n, hn, hf⟩ := bind_ok hS
  obtain ⟨hm, hname⟩ := node?_ok hn
  obtain ⟨G, hG⟩ := frag_of_mem h.compiled hm
  refine ⟨n, hm, hname, ?_⟩
  apply List.map_congr_left
  intro x hx
  obtain ⟨d, hd, rfl⟩ := List.mem_map.1 (hin x hx)
  have hdG := node_owner h hm hG hd (flow_owner hf _ hx)
  rcases flow_kinds hG hf d hdG hx with hk | hk
  · rw [nameFlow_link h hm hG f hdG hk]
    split
    · exact (link_balance h.built ha hd hk).symm
    · rfl
  · split at hk <;> rename_i he <;> simp only [he, if_true, Bool.false_eq_true, if_false]
    · exact nameFlow_output h hm hG f hdG hk
    · exact nameFlow_input h hm hG f hdG hk

theorem refs_are {st : Solver.StepState} {f : Nat → ℚ} (ha : Solver.Allowed C.model st f) {refs : List Ref} {sets : List (List Name)}
    (hs : List.Forall₂ (fun r S => N.refNodes r = .ok S) refs sets) (hin : ∀ S ∈ sets, ∀ x ∈ S, x ∈ F.nodes.map (·.name))
    (hriv : ∀ r ∈ refs, ∀ n ∈ N.nodes, ∀ b, n.name = r.name → n.body = .river b → r.component.getD .outflow = .outflow →
      b.loss = none ∨ b.routing = none) :
    List.Forall₂ (RefIs P N F C st f) refs (sets.map (fun S => (S.map (nameFlow F f)).sum)) := by
  rw [List.forall₂_map_right_iff]
  induction hs with
  | nil => exact .nil
  | cons hr _ ih =>
    refine .cons ?_ (ih (fun S hS => hin S (by simp [hS])) (fun r hr => hriv r (by simp [hr])))
    obtain ⟨n, hn, hf⟩ := bind_ok hr
    obtain ⟨hm, hname⟩ := node?_ok hn
    exact ⟨n, hm, hname, C69_component h ha hm hf (hin _ List.mem_cons_self)
      (fun b hb hc => hriv _ List.mem_cons_self n hm b hname hb hc)⟩

/-- **C72 (outflow of an aggregated node).** An aggregated node of components that leave their nodes reports as outflow, which is also its
default, the sum of their flows. -/
theorem C72_outflow {st : Solver.StepState} {f : Nat → ℚ} (ha : Solver.Allowed C.model st f) {v : VNode} (hv : v ∈ N.virtualNodes)
    {refs hi lo rel} (hb : v.body = .aggregated refs hi lo rel)
    (hriv : ∀ r ∈ refs, ∀ n ∈ N.nodes, ∀ b, n.name = r.name → n.body = .river b → r.component.getD .outflow = .outflow →
      b.loss = none ∨ b.routing = none)
    (hout : ∀ r ∈ refs, ∀ n ∈ N.nodes, n.name = r.name → (n.body.component r.component).Enters = false) :
    ∃ qs : List ℚ, List.Forall₂ (RefIs P N F C st f) refs qs ∧ aggReport F C f (v.name, none) none = .ok (some qs.sum) ∧
      aggReport F C f (v.name, none) (some .outflow) = .ok (some qs.sum) := by
  obtain ⟨sets, hs, hin, h1, h2, _⟩ := agg_report h f hv hb
  refine ⟨_, refs_are h ha hs hin hriv, ?_⟩
  have : sets.map (fun S => (S.map (nameFlow F f)).sum) = sets.map (fun S => (S.map (outOf F f)).sum) := by
    apply List.map_congr_left
    intro S hS
    obtain ⟨r, hr, hrS⟩ := forall₂_mem' hs hS
    obtain ⟨n, hm, hname, he⟩ := ref_flow h f ha hrS (hin S hS)
    rw [he, hout r hr n hm hname]
    simp
  rw [this]
  exact ⟨h1, h2⟩

/-- **C72 (inflow of an aggregated node).** An aggregated node of components that enter their nodes reports as inflow the sum of their
flows. -/
theorem C72_inflow {st : Solver.StepState} {f : Nat → ℚ} (ha : Solver.Allowed C.model st f) {v : VNode} (hv : v ∈ N.virtualNodes)
    {refs hi lo rel} (hb : v.body = .aggregated refs hi lo rel)
    (hent : ∀ r ∈ refs, ∀ n ∈ N.nodes, n.name = r.name → (n.body.component r.component).Enters = true) :
    ∃ qs : List ℚ, List.Forall₂ (RefIs P N F C st f) refs qs ∧ aggReport F C f (v.name, none) (some .inflow) = .ok (some qs.sum) := by
  obtain ⟨sets, hs, hin, _, _, h3⟩ := agg_report h f hv hb
  refine ⟨_, refs_are h ha hs hin ?_, ?_⟩
  · intro r hr n hm b hname hb hc
    have := hent r hr n hm hname
    rw [hb, show (Body.river b).component r.component = r.component.getD .outflow from by cases r.component <;> rfl, hc] at this
    cases this
  · have : sets.map (fun S => (S.map (nameFlow F f)).sum) = sets.map (fun S => (S.map (into F f)).sum) := by
      apply List.map_congr_left
      intro S hS
      obtain ⟨r, hr, hrS⟩ := forall₂_mem' hs hS
      obtain ⟨n, hm, hname, he⟩ := ref_flow h f ha hrS (hin S hS)
      rw [he, hent r hr n hm hname]
      simp
    rw [this]
    exact h3

/-- **C72, refuted (outflow).** The flow reported by default is 0 for every aggregated node of outputs, whatever flow they receive: the flow it
limits is their inflow. -/
theorem C72_outputs_refuted (f : Nat → ℚ) {v : VNode} (hv : v ∈ N.virtualNodes) {refs hi lo rel}
    (hb : v.body = .aggregated refs hi lo rel) (hout : ∀ r ∈ refs, ∀ n ∈ N.nodes, n.name = r.name → ∃ b, n.body = .output b) :
    aggReport F C f (v.name, none) none = .ok (some 0) := by
  obtain ⟨sets, hs, hin, h1, _, _⟩ := agg_report h f hv hb
  rw [h1]
  congr 2
  apply List.sum_eq_zero
  intro q hq
  obtain ⟨S, hS, rfl⟩ := List.mem_map.1 hq
  apply List.sum_eq_zero
  intro q hq
  obtain ⟨x, hx, rfl⟩ := List.mem_map.1 hq
  obtain ⟨r, hr, hrS⟩ := forall₂_mem' hs hS
  obtain ⟨n, hn, hf⟩ := bind_ok hrS
  obtain ⟨hm, hname⟩ := node?_ok hn
  obtain ⟨b, hbo⟩ := hout r hr n hm hname
  obtain ⟨G, hG⟩ := frag_of_mem h.compiled hm
  obtain ⟨d, hd, rfl⟩ := List.mem_map.1 (hin S hS x hx)
  have hdG := node_owner h hm hG hd (flow_owner hf _ hx)
  refine outOf_output h.built hd ?_ f
  unfold SNode.frag at hG
  simp only [hbo, Except.ok.injEq] at hG
  subst hG
  simp only [FlowN.outputFrag, List.mem_singleton] at hdG
  rw [hdG]

/-! ## Volumes -/

/-- What an aggregated storage reports. -/
theorem store_report {s : StoreDecl} (hs : s ∈ F.stores) (volume maxVolume : Nat → Option ℚ) :
    (∀ x ∈ s.nodes, x ∈ F.nodes.map (·.name)) ∧
    storeVolume F C volume s.name = sumAll (s.nodes.map (fun x => volume ((F.nodes.map (·.name)).idxOf x))) ∧
    storeProportion F C volume maxVolume s.name = (do
      let v ← sumAll (s.nodes.map (fun x => volume ((F.nodes.map (·.name)).idxOf x)))
      let m ← sumAll (s.nodes.map (fun x => maxVolume ((F.nodes.map (·.name)).idxOf x)))
      return if m = 0 then 1 else v / m) := by
  obtain ⟨k, hk1, hk2⟩ := findIdx_name (·.name) F.stores (agg_names_nodup h.built).2 hs
  obtain ⟨is, hi1, hi2⟩ := forall₂_getElem? (build_ok F C h.built).2.2.2.1 hk2
  have hf := (eachB_ok _ _ _).1 hi2
  have hidx : ∀ {x i}, F.index? x = .ok i → x ∈ F.nodes.map (·.name) ∧ i = (F.nodes.map (·.name)).idxOf x := by
    intro x i hi
    obtain ⟨d, hd, rfl⟩ := (index_ok (names_nodup h.built) x i).1 hi
    refine ⟨List.mem_map_of_mem (List.mem_of_getElem? hd), ?_⟩
    have hlt : i < (F.nodes.map (·.name)).length := by
      have := (List.getElem?_eq_some_iff.1 hd).1
      simpa using this
    have hget : (F.nodes.map (·.name))[i] = d.name := by
      have := (List.getElem?_eq_some_iff.1 hd).2
      simp [this]
    rw [← hget, (names_nodup h.built).idxOf_getElem i hlt]
  have hmap : ∀ g : Nat → Option ℚ, is.map g = s.nodes.map (fun x => g ((F.nodes.map (·.name)).idxOf x)) := by
    intro g
    clear hi1 hi2 hk1 hk2 hs
    generalize s.nodes = ns at hf ⊢
    induction hf with
    | nil => rfl
    | cons h1 _ ih => rw [List.map_cons, List.map_cons, ih, (hidx h1).2]
  refine ⟨?_, ?_, ?_⟩
  · intro x hx
    obtain ⟨i, _, hi⟩ := forall₂_mem hf hx
    exact (hidx hi).1
  · unfold storeVolume
    simp only [hk1, hi1, Option.bind_eq_bind, Option.bind_some, hmap]
  · unfold storeProportion
    simp only [hk1, hi1, Option.bind_eq_bind, Option.bind_some, hmap]

/-- The core nodes taken for the storage of a node are its storage nodes. -/
theorem storage_names {n : SNode} (hm : n ∈ N.nodes) {S : List Name} (hS : n.storageNodes = .ok S) :
    S = ((coreNodes F n.name).filter (fun d => d.kind = .storage)).map (·.name) := by
  obtain ⟨G, hG⟩ := frag_of_mem h.compiled hm
  unfold SNode.storageNodes at hS
  cases hb : n.body <;> simp only [hb, reduceCtorEq, Except.ok.injEq] at hS
  · rw [coreNodes_eq h hm hG]
    unfold SNode.frag at hG
    simp only [hb, Except.ok.injEq] at hG
    subst hG; subst hS
    simp [StorageN.frag]
  · rename_i b
    have hall : (coreNodes F n.name).filter (fun d => decide (d.kind = .storage)) = coreNodes F n.name := by
      rw [List.filter_eq_self]
      intro d hd
      rw [coreNodes_eq h hm hG] at hd
      unfold SNode.frag at hG
      simp only [hb, Except.ok.injEq, PieceStoreN.frag] at hG
      subst hG
      simp only [Frag.add, List.append_nil] at hd
      obtain ⟨j, _, hj⟩ := forall₂_mem' (pieceLoop_all P n.name b b.steps 0 none []) hd
      simpa using hj.2.1
    rw [hall, core_names h hm hb]
    exact hS.symm
  · rename_i b
    rw [coreNodes_eq h hm hG]
    unfold SNode.frag at hG
    simp only [hb] at hG
    unfold ReservoirN.frag at hG
    split at hG
    · cases hG
    · split at hG
      · cases hG
      · simp only [Except.ok.injEq] at hG
        subst hG; subst hS
        unfold ReservoirN.releaseFrag
        cases b.compensation <;> cases b.spill <;> cases b.area <;> cases b.rainfall <;> cases b.evaporation <;> cases b.leakage <;>
          simp [Frag.add, StorageN.frag, ReservoirN.rainFrag, ReservoirN.evapFrag, ReservoirN.leakFrag] <;>
          (try split) <;> simp <;> (try (split <;> simp))

theorem total_sum {volume : Nat → Option ℚ} {n : SNode} (hm : n ∈ N.nodes) {S : List Name} (hS : n.storageNodes = .ok S) {w : ℚ}
    (hw : TotalIs F volume n.name w) :
    ∃ vs : List ℚ, S.map (fun x => volume ((F.nodes.map (·.name)).idxOf x)) = vs.map some ∧ vs.sum = w := by
  obtain ⟨vs, hvs, hsum⟩ := hw
  refine ⟨vs, ?_, hsum⟩
  rw [storage_names h hm hS, List.map_map]
  exact hvs

/-- **C71 (reported volume).** The volume and the relative volume reported for a piecewise storage are those of all its stores together. -/
theorem C71_volume {n : SNode} (hm : n ∈ N.nodes) {b : PieceStoreN} (hb : n.body = .pieceStore b) {volume maxVolume : Nat → Option ℚ}
    {w m : ℚ} (hw : TotalIs F volume n.name w) (hx : TotalIs F maxVolume n.name m) :
    ∃ s s', n.metric none = .ok (.aggStorageVolume s) ∧ n.metric (some .volume) = .ok (.aggStorageVolume s) ∧
      n.metric (some .proportionalVolume) = .ok (.aggStorageProportionalVolume s') ∧ storeVolume F C volume s = some w ∧
      storeProportion F C volume maxVolume s' = some (if m = 0 then 1 else w / m) := by
  have hS : n.storageNodes = .ok ((List.range (b.steps.length + 1)).map (storeName n.name)) := by
    unfold SNode.storageNodes; simp only [hb]
  obtain ⟨vs, hvs, hsum⟩ := total_sum h hm hS hw
  obtain ⟨us, hus, husum⟩ := total_sum h hm hS hx
  obtain ⟨G, hG⟩ := frag_of_mem h.compiled hm
  obtain ⟨Gs, Vs, Es, hparts⟩ := compile_parts h.compiled
  obtain ⟨G', hG', hGG⟩ := forall₂_mem hparts.frags hm
  have hs : ⟨(n.name, some "agg-store"), (List.range (b.steps.length + 1)).map (storeName n.name)⟩ ∈ F.stores := by
    rw [hparts.stores]
    apply List.mem_append_left
    rw [List.mem_flatMap]
    refine ⟨G', hG', ?_⟩
    unfold SNode.frag at hGG
    simp only [hb, Except.ok.injEq, PieceStoreN.frag] at hGG
    rw [← hGG]
    exact List.mem_append_right _ List.mem_cons_self
  obtain ⟨_, h1, h2⟩ := store_report h hs volume maxVolume
  refine ⟨(n.name, some "agg-store"), (n.name, some "agg-store"), ?_, ?_, ?_, ?_, ?_⟩
  · unfold SNode.metric; simp only [hb, Option.getD_none]
  · unfold SNode.metric; simp only [hb, Option.getD_some]
  · unfold SNode.metric; simp only [hb, Option.getD_some]
  · rw [h1, hvs, sumAll_map_some, hsum]
  · rw [h2, hvs, hus, sumAll_map_some, sumAll_map_some, hsum, husum]; rfl

/-- **C72 (aggregated storages).** The volume an aggregated storage reports is the sum of the volumes of its nodes, and its relative volume
that sum over the sum of their largest volumes. -/
theorem C72_volume {v : VNode} (hv : v ∈ N.virtualNodes) {names : List String} (hb : v.body = .aggregatedStorage names)
    {volume maxVolume : Nat → Option ℚ} {ws ms : List ℚ} (hw : List.Forall₂ (TotalIs F volume) names ws)
    (hx : List.Forall₂ (TotalIs F maxVolume) names ms) :
    storeVolume F C volume (v.name, none) = some ws.sum ∧
    storeProportion F C volume maxVolume (v.name, none) = some (if ms.sum = 0 then 1 else ws.sum / ms.sum) := by
  obtain ⟨Gs, Vs, Es, hparts⟩ := compile_parts h.compiled
  obtain ⟨V, hV, hvV⟩ := forall₂_mem hparts.virtuals hv
  unfold Net.virtualFrag at hvV
  simp only [hb] at hvV
  obtain ⟨sets, hs0, hvV'⟩ := bind_ok hvV
  simp only [pure, Except.pure, Except.ok.injEq] at hvV'
  have hs := (each_ok _ _ _).1 hs0
  have hmem : ⟨(v.name, none), sets.flatten⟩ ∈ F.stores := by
    rw [hparts.stores]
    apply List.mem_append_right
    rw [List.mem_flatMap]
    exact ⟨V, hV, by rw [← hvV']; simp⟩
  obtain ⟨h0, h1, h2⟩ := store_report h hmem volume maxVolume
  have total : ∀ {g : Nat → Option ℚ} {us : List ℚ}, List.Forall₂ (TotalIs F g) names us →
      sumAll (sets.flatten.map (fun x => g ((F.nodes.map (·.name)).idxOf x))) = some us.sum := by
    intro g us hus
    suffices ∃ vs : List ℚ, sets.flatten.map (fun x => g ((F.nodes.map (·.name)).idxOf x)) = vs.map some ∧ vs.sum = us.sum by
      obtain ⟨vs, h1, h2⟩ := this
      rw [h1, sumAll_map_some, h2]
    clear h0 h1 h2 hmem hvV hvV' hs0 hw hx hb
    induction hs generalizing us with
    | nil => cases hus; exact ⟨[], rfl, rfl⟩
    | cons hS _ ih =>
      cases hus with
      | cons hu hus =>
        obtain ⟨vs, e1, e2⟩ := ih hus
        obtain ⟨n, hn, hf⟩ := bind_ok hS
        obtain ⟨hm, rfl⟩ := node?_ok hn
        obtain ⟨us', e3, e4⟩ := total_sum h hm hf hu
        exact ⟨us' ++ vs, by rw [List.flatten_cons, List.map_append, List.map_append, e1, e3], by rw [List.sum_append, List.sum_cons, e2, e4]⟩
  exact ⟨by rw [h1, total hw], by rw [h2, total hw, total hx]; rfl⟩

end

end Verif.Schema
