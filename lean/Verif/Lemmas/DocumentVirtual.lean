import Verif.Lemmas.DocumentMetrics
import Verif.Lemmas.WholeTops
import Verif.Props.SchemaReports

/-! # What metrics of virtual nodes and of proportional volumes show in a run of a document -/

namespace Verif.EndToEnd

open Verif.State Verif.Solver Verif.Time Verif.Simulation
open Verif.Coupled (World Steps step_iff maxFlows SeenBefore SeenAfter flowBefore Sight IsStorage Moment share)
open Verif.Load (Story Side SNum SHolds Told)
open Verif.Schema (Frag Core UMetric Decl)

variable {D : Document} {E : Setting} {F : Frag} {C : Core}

/-- The state before or after an allocation. -/
def onSide (r : Record) : Side → NetworkState
  | .early => r.pre
  | .late => r.post

/-- A metric of a virtual node shows what it finds. -/
theorem snum_virtual {S : Story Area} {t : Nat} {r : String} {m : VMetric} (hr : Names D r m) {c : Coupled.Comp} (hc : m.place F C = some c)
    (side : Side) (o : Option String) (q : ℚ) :
    SNum (D.args E F C) S side t o (.component r) q ↔ (S.net side t).world.get c = some q := by
  obtain ⟨x, a, v, h1, h2, h3⟩ := hr
  have hcomp : (D.args E F C).comp r = .ok (.shown fun w => w.world.get c) := by
    simp only [Document.args, h1, h2, h3, hc, shownAt]
  simp only [SNum]
  rw [hcomp]
  constructor
  · rintro ⟨fd, e1, e2⟩
    cases e1
    exact e2
  · intro e
    exact ⟨_, rfl, e⟩

theorem snum_placed {S : Story Area} {t : Nat} {r : String} {u : UMetric} (hr : (D.refs r).metric D.net = .ok u) {c : Coupled.Comp}
    (hu : ∀ x p, u ≠ .parameter x p) (hf : found F C u = .ok (.shown fun w => w.world.get c)) (side : Side) (o : Option String) (q : ℚ) :
    SNum (D.args E F C) S side t o (.component r) q ↔ (S.net side t).world.get c = some q := by
  rw [snum_shown hr hu, hf]
  simp only [Except.ok.injEq, Load.Found.shown.injEq]
  constructor
  · rintro ⟨look, rfl, h⟩; exact h
  · intro h; exact ⟨_, rfl, h⟩

theorem snum_volume {S : Story Area} {t : Nat} {r : String} {x : Topology.Name} (hr : NamesVolume D r x) {is : List Nat}
    (hc : VMetric.place F C (.storeVolume x) = some (.aggStorageVolume is)) (side : Side) (o : Option String) (q : ℚ) :
    SNum (D.args E F C) S side t o (.component r) q ↔ (S.net side t).world.get (.aggStorageVolume is) = some q := by
  rcases hr with hr | hr
  · exact snum_virtual hr hc side o q
  · refine snum_placed hr (by simp) ?_ side o q
    simp only [VMetric.place] at hc
    simp only [found, place, hc]

theorem snum_share {S : Story Area} {t : Nat} {r : String} {x : Topology.Name} (hr : NamesShare D r x) {is : List Nat}
    (hc : VMetric.place F C (.storeShare x) = some (.aggStorageProportionalVolume is)) (side : Side) (o : Option String) (q : ℚ) :
    SNum (D.args E F C) S side t o (.component r) q ↔ (S.net side t).world.get (.aggStorageProportionalVolume is) = some q := by
  rcases hr with hr | hr
  · exact snum_virtual hr hc side o q
  · refine snum_placed hr (by simp) ?_ side o q
    simp only [VMetric.place] at hc
    simp only [found, place, hc]

theorem vs_names_nodup (hb : F.build = .ok C) : (F.vs.map (·.name)).Nodup := by
  have := ((Topology.C49_build_iff _).1 ⟨_, (Schema.build_ok F C hb).1⟩).storages
  simpa [Frag.builder, Function.comp_def] using this

theorem at_of_name {α : Type} (g : α → Topology.Name) {l : List α} (hn : (l.map g).Nodup) {k : Nat} {a : α} (hk : l[k]? = some a) :
    l.findIdx? (fun s => decide (g s = g a)) = some k := by
  obtain ⟨j, h1, h2⟩ := Schema.findIdx_name g l hn (List.mem_of_getElem? hk)
  have : j = k := by
    have e1 : (l.map g)[j]? = some (g a) := by simp [h2]
    have e2 : (l.map g)[k]? = some (g a) := by simp [hk]
    exact (List.getElem?_inj (i := j) (List.getElem?_eq_some_iff.1 e1).1 hn).1 (e1.trans e2.symm)
  rw [h1, this]

section
variable {n : Nat} {S : Story Area} {input : Nat → Inp} {record : Nat → Record} {st : Nat → SimState}

theorem Simulated.moment (h : Simulated D E F C n S input record st) (hv : (D.sim F C).Valid) {t : Nat} (ht : t < n) (side : Side) :
    ∃ g, (∀ c v, (S.net side t).world.get c = some v ↔ Coupled.Shows (D.sim F C) g c v) ∧
      Moment (D.sim F C) (input t) (onSide (record t) side) (flowsAt (fun t => (record t).flow) t side) g := by
  obtain ⟨⟨g, g1, -, g3⟩, ⟨g', g1', -, g3'⟩⟩ := h.seen hv ht
  cases side with
  | early => exact ⟨g, g3, by rw [← show flowBefore record t = flowsAt (fun t => (record t).flow) t .early from flowBefore_eq record t]; exact g1⟩
  | late => exact ⟨g', g3', g1'⟩

theorem Simulated.bounds_at (h : Simulated D E F C n S input record st) {t : Nat} (ht : t < n) :
    (D.sim F C).bounds (input t).metric = some (record t).bounds := by
  obtain ⟨b, x, hb, -, -, -, a5⟩ := step_iff.1 (h.steps.step t ht)
  rw [a5]; exact hb

theorem Simulated.index (h : Simulated D E F C n S input record st) (hf : Fit D E F C n) {t : Nat} (ht : t < n) : (input t).t.index = t := by
  rw [h.time t ht]; exact hf.index t ht

theorem Simulated.maximum (h : Simulated D E F C n S input record st) (hb : F.build = .ok C) {k : Nat} {d : Decl} (hk : F.nodes[k]? = some d)
    (hs : d.kind = .storage) {t : Nat} (ht : t < n) : ValueIs (input t).metric d.data.maxVolume f64MAX ((record t).bounds.node k).2 := by
  obtain ⟨nd, b1, b2, -, b4, -⟩ := Schema.nodeFlow_at hb (record t).flow hk
  obtain ⟨c1, -⟩ := bounds_some (h.bounds_at ht)
  have := (c1 nd (List.mem_of_getElem? b1) (b4.trans hs)).2
  rw [b2] at this
  have hdata : (D.sim F C).data k = d.data := Schema.data_at hb hk
  rwa [hdata] at this

theorem Simulated.proportions (h : Simulated D E F C n S input record st) (hb : F.build = .ok C) (hf : Fit D E F C n) {t : Nat}
    (ht : t < n) {r : String} {x : Topology.Name} (hr : (D.refs r).metric D.net = .ok (.nodeProportionalVolume x)) {d : Decl} (hd : d ∈ F.nodes)
    (hdn : d.name = x) (hs : d.kind = .storage) :
    ∃ v now before, Schema.stored F (stateAt D F C input record t) x = some v ∧ ValueIs (input t).metric d.data.maxVolume f64MAX now ∧
      ValueIs (input (t - 1)).metric d.data.maxVolume f64MAX before ∧
      (∀ o q, SNum (D.args E F C) S .early t o (.component r) q ↔ q = share v before) ∧
      ∀ o q, SNum (D.args E F C) S .late t o (.component r) q ↔ q = share (v + (E.time t).days * Schema.coreFlow F (record t).flow d) now := by
  obtain ⟨k, hk⟩ := List.getElem?_of_mem hd
  obtain ⟨h0, v, h1, h2, h3⟩ := h.volume hb hf ht hk hs
  subst hdn
  have hat := (nodeAt_iff hb d.name k).2 ⟨d, hk, rfl⟩
  have hmax : ∀ s < n, ValueIs (input s).metric d.data.maxVolume f64MAX ((record s).bounds.node k).2 := fun s hsn => h.maximum hb hk hs hsn
  have key : ∀ side o q (vol top : ℚ), (onSide (record t) side).nodeVolume k = .ok vol →
      (∃ s, (onSide (record t) side).nodes[k]? = some (.storage s) ∧ s.maxVolume = top) →
      (SNum (D.args E F C) S side t o (.component r) q ↔ q = share vol top) := by
    intro side o q vol top e1 e2
    rw [snum_shown hr (by simp)]
    obtain ⟨g, g1, g2⟩ := h.moment (hf.sim hb) ht side
    have hvol := g2.volume k h0
    rw [e1, Except.ok.injEq] at hvol
    obtain ⟨s, e3, e4⟩ := e2
    obtain ⟨s', e5, e6⟩ := g2.top k h0
    rw [e3, Option.some.injEq, NodeState.storage.injEq] at e5
    subst e5
    have hfound : found F C (.nodeProportionalVolume d.name) = .ok (.shown fun w => w.world.get (.nodeProportionalVolume k)) := by
      simp [found, place, hat]
    rw [hfound]
    simp only [Except.ok.injEq, Load.Found.shown.injEq]
    rw [← e4, e6, hvol]
    constructor
    · rintro ⟨look, rfl, h5⟩
      exact ((g1 _ _).1 h5).2
    · rintro rfl
      exact ⟨_, rfl, (g1 _ _).2 ⟨h0, rfl⟩⟩
  have hv := (hf.sim hb).model
  exact ⟨v, _, _, h3, hmax t ht, hmax (t - 1) (by omega),
    fun o q => key .early o q _ _ h1 ((h.steps.tops_before hv ht (h.index hf ht)).1 k h0),
    fun o q => key .late o q _ _ h2 ((h.steps.tops hv ht).1 k h0)⟩

theorem Simulated.maxima (h : Simulated D E F C n S input record st) (hb : F.build = .ok C) (hf : Fit D E F C n) {t : Nat}
    (ht : t < n) {r : String} {x : Topology.Name} (hr : (D.refs r).metric D.net = .ok (.nodeMaxVolume x)) {d : Decl} (hd : d ∈ F.nodes)
    (hdn : d.name = x) (hs : d.kind = .storage) :
    ∃ now, ValueIs (input t).metric d.data.maxVolume f64MAX now ∧ ∀ side o q, SNum (D.args E F C) S side t o (.component r) q ↔ q = now := by
  obtain ⟨k, hk⟩ := List.getElem?_of_mem hd
  obtain ⟨h0, -⟩ := h.volume hb hf ht hk hs
  subst hdn
  have hat := (nodeAt_iff hb d.name k).2 ⟨d, hk, rfl⟩
  have hdata : (D.sim F C).data k = d.data := Schema.data_at hb hk
  have hone : ∀ side, ∃ now, ValueIs (input t).metric d.data.maxVolume f64MAX now ∧
      ∀ o q, SNum (D.args E F C) S side t o (.component r) q ↔ q = now := by
    intro side
    obtain ⟨g, g1, g2⟩ := h.moment (hf.sim hb) ht side
    obtain ⟨lo, h5⟩ := g2.most k h0
    rw [hdata] at h5
    refine ⟨g.most k, h5.2, fun o q => ?_⟩
    rw [snum_shown hr (by simp)]
    have hfound : found F C (.nodeMaxVolume d.name) = .ok (.shown fun w => w.world.get (.nodeMaxVolume k)) := by
      simp [found, place, hat]
    rw [hfound]
    simp only [Except.ok.injEq, Load.Found.shown.injEq]
    constructor
    · rintro ⟨look, rfl, h6⟩
      exact ((g1 _ _).1 h6).2
    · rintro rfl
      exact ⟨_, rfl, (g1 _ _).2 ⟨h0, rfl⟩⟩
  obtain ⟨now, h1, h2⟩ := hone .early
  obtain ⟨now', h3, h4⟩ := hone .late
  have e : now' = now := by
    revert h1 h3
    cases d.data.maxVolume with
    | none => intro h1 h3; simp only [ValueIs] at h1 h3; rw [h1, h3]
    | some m => cases m <;> (intro h1 h3; simp_all [ValueIs])
  subst e
  exact ⟨now', h1, fun side => by cases side <;> assumption⟩

theorem members_flows (hb : F.build = .ok C) (hv : (D.sim F C).Valid) (f : Nat → ℚ) : ∀ {xs : List Topology.Name} {is : List Nat},
    List.Forall₂ (fun x i => F.index? x = .ok i) xs is →
    (∀ i ∈ is, i < (D.sim F C).net.nodes.length) ∧ is.map (inSum (D.sim F C).net.edges f) = xs.map (Schema.into F f) ∧
    is.map (outSum (D.sim F C).net.edges f) = xs.map (Schema.outOf F f) := by
  intro xs is hall
  induction hall with
  | nil => simp
  | @cons x i xs is hx _ ih =>
    have hat : nodeAt F x = some i := by unfold nodeAt; rw [hx]; rfl
    obtain ⟨e1, -, -, e4, e5⟩ := flows_at (D := D) hb hv hat f
    refine ⟨?_, ?_, ?_⟩
    · intro j hj
      rcases List.mem_cons.1 hj with rfl | hj
      · exact e1
      · exact ih.1 j hj
    · rw [List.map_cons, List.map_cons, ih.2.1, e4]
    · rw [List.map_cons, List.map_cons, ih.2.2, e5]

theorem eachB_flatten : ∀ {sets : List (List Topology.Name)} {iss : List (List Nat)},
    Schema.eachB (Schema.eachB F.index?) sets = .ok iss → List.Forall₂ (fun x i => F.index? x = .ok i) sets.flatten iss.flatten := by
  intro sets iss h
  have := (Schema.eachB_ok _ _ _).1 h
  clear h
  induction this with
  | nil => exact .nil
  | cons h1 _ ih =>
    rw [List.flatten_cons, List.flatten_cons]
    exact List.rel_append ((Schema.eachB_ok _ _ _).1 h1) ih

theorem Simulated.aggregated (h : Simulated D E F C n S input record st) (hb : F.build = .ok C) (hf : Fit D E F C n) {t : Nat}
    (ht : t < n) {r : String} {d : Schema.AggDecl} (hd : d ∈ F.aggs) (side : Side) (o : Option String) (q : ℚ) :
    (Names D r (.inFlow d.name) → (SNum (D.args E F C) S side t o (.component r) q ↔
      q = (d.nodes.flatten.map (Schema.into F (flowsAt (fun t => (record t).flow) t side))).sum)) ∧
    (Names D r (.outFlow d.name) → (SNum (D.args E F C) S side t o (.component r) q ↔
      q = (d.nodes.flatten.map (Schema.outOf F (flowsAt (fun t => (record t).flow) t side))).sum)) := by
  obtain ⟨k, hk⟩ := List.getElem?_of_mem hd
  have hat : aggAt F d.name = some k := at_of_name (fun d : Schema.AggDecl => d.name) (Schema.agg_names_nodup hb).1 hk
  have hall := (Schema.build_ok F C hb).2.2.1
  obtain ⟨hlt, hget⟩ := List.getElem?_eq_some_iff.1 hk
  have hlt' : k < C.model.aggs.length := hall.length_eq ▸ hlt
  have hr := hall.get hlt hlt'
  simp only [List.get_eq_getElem, hget] at hr
  unfold Frag.resolveAgg at hr
  cases hs : Schema.eachB (Schema.eachB F.index?) d.nodes with
  | error e => simp [hs, Bind.bind, Except.bind] at hr
  | ok iss =>
    simp only [hs, Bind.bind, Except.bind, Pure.pure, Except.pure, Except.ok.injEq] at hr
    have haggs : (D.sim F C).aggs[k]? = some ⟨iss, d.minFlow, d.maxFlow, d.relationship⟩ := by
      simp only [Document.sim]
      rw [List.getElem?_eq_getElem hlt', ← hr]
    obtain ⟨g, g1, g2⟩ := h.moment (hf.sim hb) ht side
    obtain ⟨m1, m2, m3⟩ := members_flows (D := D) hb (hf.sim hb) g.flow (eachB_flatten hs)
    refine ⟨fun hn => ?_, fun hn => ?_⟩
    · rw [snum_virtual hn (c := .aggInFlow k) (by simp [VMetric.place, hat]), g1, ← g2.flow, ← m2]
      constructor
      · rintro ⟨a, e1, -, e3⟩
        rw [haggs, Option.some.injEq] at e1
        subst e1
        exact e3
      · intro e
        exact ⟨_, haggs, m1, e⟩
    · rw [snum_virtual hn (c := .aggOutFlow k) (by simp [VMetric.place, hat]), g1, ← g2.flow, ← m3]
      constructor
      · rintro ⟨a, e1, -, e3⟩
        rw [haggs, Option.some.injEq] at e1
        subst e1
        exact e3
      · intro e
        exact ⟨_, haggs, m1, e⟩

theorem Simulated.stores (h : Simulated D E F C n S input record st) (hb : F.build = .ok C) (hf : Fit D E F C n) {t : Nat}
    (ht : t < n) {s : Schema.StoreDecl} (hs : s ∈ F.stores) {ds : List Decl}
    (hds : List.Forall₂ (fun x (d : Decl) => d ∈ F.nodes ∧ d.name = x ∧ d.kind = .storage) s.nodes ds) :
    ∃ vs nows befores, List.Forall₂ (fun (d : Decl) v => Schema.stored F (stateAt D F C input record t) d.name = some v) ds vs ∧
      List.Forall₂ (fun (d : Decl) v => ValueIs (input t).metric d.data.maxVolume f64MAX v) ds nows ∧
      List.Forall₂ (fun (d : Decl) v => ValueIs (input (t - 1)).metric d.data.maxVolume f64MAX v) ds befores ∧ ∀ r,
      (NamesVolume D r s.name →
        (∀ o q, SNum (D.args E F C) S .early t o (.component r) q ↔ q = vs.sum) ∧
        ∀ o q, SNum (D.args E F C) S .late t o (.component r) q ↔
          q = (List.zipWith (fun (d : Decl) v => v + (E.time t).days * Schema.coreFlow F (record t).flow d) ds vs).sum) ∧
      (NamesShare D r s.name →
        (∀ o q, SNum (D.args E F C) S .early t o (.component r) q ↔ q = share vs.sum befores.sum) ∧
        ∀ o q, SNum (D.args E F C) S .late t o (.component r) q ↔
          q = share (List.zipWith (fun (d : Decl) v => v + (E.time t).days * Schema.coreFlow F (record t).flow d) ds vs).sum nows.sum) := by
  obtain ⟨k, hk⟩ := List.getElem?_of_mem hs
  have hat : F.stores.findIdx? (fun s' => decide (s'.name = s.name)) = some k :=
    at_of_name (·.name) (Schema.agg_names_nodup hb).2 hk
  have hall := (Schema.build_ok F C hb).2.2.2.1
  obtain ⟨hlt, hget⟩ := List.getElem?_eq_some_iff.1 hk
  have hlt' : k < C.stores.length := hall.length_eq ▸ hlt
  have hr := hall.get hlt hlt'
  simp only [List.get_eq_getElem, hget] at hr
  have his := (Schema.eachB_ok _ _ _).1 hr
  have hplace : VMetric.place F C (.storeVolume s.name) = some (.aggStorageVolume C.stores[k]) := by
    simp [VMetric.place, storeAt, hat]
  have hplace' : VMetric.place F C (.storeShare s.name) = some (.aggStorageProportionalVolume C.stores[k]) := by
    simp [VMetric.place, storeAt, hat]
  have htops := (h.steps.tops (hf.sim hb).model ht).1
  have htops' := (h.steps.tops_before (hf.sim hb).model ht (h.index hf ht)).1
  have members : ∀ {xs : List Topology.Name} {is : List Nat} {ds : List Decl}, List.Forall₂ (fun x i => F.index? x = .ok i) xs is →
      List.Forall₂ (fun x (d : Decl) => d ∈ F.nodes ∧ d.name = x ∧ d.kind = .storage) xs ds →
      (∀ i ∈ is, IsStorage (D.sim F C) i) ∧
      ∃ vs, List.Forall₂ (fun (d : Decl) v => Schema.stored F (stateAt D F C input record t) d.name = some v) ds vs ∧
        List.Forall₂ (fun i v => (record t).pre.nodeVolume i = .ok v) is vs ∧
        List.Forall₂ (fun i v => (record t).post.nodeVolume i = .ok v) is
          (List.zipWith (fun (d : Decl) v => v + (E.time t).days * Schema.coreFlow F (record t).flow d) ds vs) ∧
        List.Forall₂ (fun (d : Decl) v => ValueIs (input t).metric d.data.maxVolume f64MAX v) ds (is.map fun i => ((record t).bounds.node i).2) ∧
        List.Forall₂ (fun (d : Decl) v => ValueIs (input (t - 1)).metric d.data.maxVolume f64MAX v) ds (is.map fun i => ((record (t - 1)).bounds.node i).2) := by
    intro xs is ds h1
    induction h1 generalizing ds with
    | nil => intro h2; cases h2; exact ⟨by simp, [], .nil, .nil, .nil, .nil, .nil⟩
    | @cons x i xs is hx _ ih =>
      intro h2
      cases h2 with
      | @cons _ d _ ds hd h2 =>
        obtain ⟨e1, vs, e2, e3, e4, e5, e6⟩ := ih h2
        obtain ⟨d', hd', hdn⟩ := (Schema.index_ok (Schema.names_nodup hb) x i).1 hx
        have : d' = d := List.inj_on_of_nodup_map (Schema.names_nodup hb) (List.mem_of_getElem? hd') hd.1 (hdn.trans hd.2.1.symm)
        subst this
        obtain ⟨f1, v, f2, f3, f4⟩ := h.volume hb hf ht hd' hd.2.2
        refine ⟨?_, v :: vs, .cons f4 e2, .cons f2 e3, .cons f3 e4, .cons (h.maximum hb hd' hd.2.2 ht) e5, .cons (h.maximum hb hd' hd.2.2 (by omega)) e6⟩
        intro j hj
        rcases List.mem_cons.1 hj with rfl | hj
        · exact f1
        · exact e1 j hj
  obtain ⟨m1, vs, m2, m3, m4, m5, m6⟩ := members his hds
  have volumes : ∀ side (ws : List ℚ) (g : Coupled.Sight), List.Forall₂ (fun i v => (onSide (record t) side).nodeVolume i = .ok v) C.stores[k] ws →
      (∀ i, IsStorage (D.sim F C) i → (onSide (record t) side).nodeVolume i = .ok (g.volume i)) → C.stores[k].map g.volume = ws := by
    intro side ws g hws g2
    clear hr his hplace hplace' m3 m4 m5 m6
    generalize C.stores[k] = is at hws m1
    induction hws with
    | nil => rfl
    | cons e1 _ ih =>
      have := g2 _ (m1 _ List.mem_cons_self)
      rw [e1, Except.ok.injEq] at this
      rw [List.map_cons, ← this, ih fun i hi => m1 i (List.mem_cons_of_mem _ hi)]
  have key : ∀ side r o q (ws : List ℚ), NamesVolume D r s.name →
      List.Forall₂ (fun i v => (onSide (record t) side).nodeVolume i = .ok v) C.stores[k] ws →
      (SNum (D.args E F C) S side t o (.component r) q ↔ q = ws.sum) := by
    intro side r o q ws hn hws
    obtain ⟨g, g1, g2⟩ := h.moment (hf.sim hb) ht side
    rw [snum_volume hn hplace, g1]
    simp only [Coupled.Shows, volumes side ws g hws g2.volume]
    exact ⟨fun e => e.2, fun e => ⟨m1, e⟩⟩
  have key' : ∀ side r o q (ws : List ℚ) (top : Nat → ℚ), NamesShare D r s.name →
      List.Forall₂ (fun i v => (onSide (record t) side).nodeVolume i = .ok v) C.stores[k] ws →
      (∀ i, IsStorage (D.sim F C) i → ∃ s, (onSide (record t) side).nodes[i]? = some (.storage s) ∧ s.maxVolume = top i) →
      (SNum (D.args E F C) S side t o (.component r) q ↔ q = share ws.sum (C.stores[k].map top).sum) := by
    intro side r o q ws top hn hws htop
    obtain ⟨g, g1, g2⟩ := h.moment (hf.sim hb) ht side
    rw [snum_share hn hplace', g1]
    have hmap : C.stores[k].map g.top = C.stores[k].map top := by
      apply List.map_congr_left
      intro i hi
      obtain ⟨s1, e1, e2⟩ := g2.top i (m1 i hi)
      obtain ⟨s2, e3, e4⟩ := htop i (m1 i hi)
      rw [e3, Option.some.injEq, NodeState.storage.injEq] at e1
      rw [← e2, ← e4, e1]
    simp only [Coupled.Shows, volumes side ws g hws g2.volume, hmap]
    exact ⟨fun e => e.2, fun e => ⟨m1, e⟩⟩
  exact ⟨vs, _, _, m2, m5, m6, fun r => ⟨fun hn => ⟨fun o q => key .early r o q vs hn m3, fun o q => key .late r o q _ hn m4⟩,
    fun hn => ⟨fun o q => key' .early r o q vs _ hn m3 htops', fun o q => key' .late r o q _ _ hn m4 htops⟩⟩⟩

theorem Simulated.licence_shown (h : Simulated D E F C n S input record st) (hb : F.build = .ok C) (hf : Fit D E F C n) {t : Nat}
    (ht : t < n) {k : Nat} {v : VStore} (hk : C.model.vs[k]? = some v) {d : Schema.VsDecl} (hd : F.vs[k]? = some d) {r : String} :
    (Names D r (.vsVolume d.name) → ∀ o q,
      (SNum (D.args E F C) S .early t o (.component r) q ↔ q = ((record t).pre.vsVolume k).toOption.getD 0) ∧
      (SNum (D.args E F C) S .late t o (.component r) q ↔ q = ((record t).post.vsVolume k).toOption.getD 0)) ∧
    (Names D r (.vsShare d.name) → ∀ o q,
      (SNum (D.args E F C) S .early t o (.component r) q ↔ q = share (((record t).pre.vsVolume k).toOption.getD 0) (D.licences k).hi) ∧
      (SNum (D.args E F C) S .late t o (.component r) q ↔ q = share (((record t).post.vsVolume k).toOption.getD 0) (D.licences k).hi)) := by
  have hat : vsAt F d.name = some k := at_of_name (fun d : Schema.VsDecl => d.name) (vs_names_nodup hb) hd
  have hlt : k < (D.sim F C).vsNodes.length := by
    simp only [Document.sim, List.length_mapIdx]
    exact (List.getElem?_eq_some_iff.1 hk).1
  have hhi : ∀ s < n, ((record s).bounds.vs k).2 = (D.licences k).hi := by
    intro s hs
    exact (licence_bounds ((bounds_some (h.bounds_at hs)).2 k hlt)).2
  have htop : ∀ side, ∃ s, (onSide (record t) side).vs[k]? = some s ∧ s.storage.maxVolume = (D.licences k).hi := by
    intro side
    cases side with
    | early =>
      obtain ⟨s, e1, e2⟩ := (h.steps.tops_before (hf.sim hb).model ht (h.index hf ht)).2 k hlt
      refine ⟨s, e1, ?_⟩
      rcases e2 with e2 | e2
      · rw [e2, hhi t ht]
      · rw [e2, hhi (t - 1) (by omega)]
    | late =>
      obtain ⟨s, e1, e2⟩ := (h.steps.tops (hf.sim hb).model ht).2 k hlt
      exact ⟨s, e1, by rw [e2, hhi t ht]⟩
  have one : ∀ side o q, Names D r (.vsVolume d.name) →
      (SNum (D.args E F C) S side t o (.component r) q ↔ q = ((onSide (record t) side).vsVolume k).toOption.getD 0) := by
    intro side o q hn
    obtain ⟨g, g1, g2⟩ := h.moment (hf.sim hb) ht side
    rw [snum_virtual hn (c := .vsVolume k) (by simp [VMetric.place, hat]), g1, g2.vsVolume k hlt]
    exact ⟨fun e => e.2, fun e => ⟨hlt, e⟩⟩
  have two : ∀ side o q, Names D r (.vsShare d.name) →
      (SNum (D.args E F C) S side t o (.component r) q ↔
        q = share (((onSide (record t) side).vsVolume k).toOption.getD 0) (D.licences k).hi) := by
    intro side o q hn
    obtain ⟨g, g1, g2⟩ := h.moment (hf.sim hb) ht side
    rw [snum_virtual hn (c := .vsProportionalVolume k) (by simp [VMetric.place, hat]), g1, g2.vsVolume k hlt]
    obtain ⟨s, e1, e2⟩ := htop side
    obtain ⟨s', e3, e4⟩ := g2.vsTop k hlt
    rw [e1, Option.some.injEq] at e3
    subst e3
    rw [← e2, e4]
    exact ⟨fun e => e.2, fun e => ⟨hlt, e⟩⟩
  exact ⟨fun hn o q => ⟨one .early o q hn, one .late o q hn⟩, fun hn o q => ⟨two .early o q hn, two .late o q hn⟩⟩

end

/-- What is told of a document happens. -/
theorem happens_of_told {D : Document} {E : Setting} {F : Frag} {C : Core} {n : Nat} (hb : F.build = .ok C) (hf : Fit D E F C n) (hl : D.listed F = true) {s : SimState}
    (hs : (D.sim F C).initial E.big E.negBig = .ok s) {S : Story Area}
    (told : Told (D.args E F C) D.doc (volumeIds F) (start (D.sim F C) E) (allocate (D.sim F C) E) (blank (D.sim F C) E s) n S) :
    ∃ f st, Happens D E F C n S f st := by
  obtain ⟨input, record, st, h⟩ := simulated hb hs told
  refine ⟨fun t => (record t).flow, stateAt D F C input record, ⟨told.params, told.settled, h.values, h.present, ?_, ?_, ?_, ?_, ?_, ?_, ?_, ?_, ?_, ?_, ?_, ?_, ?_, ?_, ?_⟩⟩
  · intro t ht
    exact congrArg Timestep.days (h.time t ht)
  · intro t ht
    exact h.allowed hf ht
  · intro hbig ho t ht cost hcost g h1 h2
    exact h.least hf hbig ho ht cost hcost g h1 h2
  · intro t ht r u hu hfl side o q
    exact h.flows hb (hf.sim hb) ht hu hfl side o q
  · intro t ht r x hx o q hq
    exact h.deficits hb (hf.sim hb) ht hx hq
  · intro t ht r x hx hn k hk side o q
    exact h.transfers ht hx hn hk side o q
  · intro hn d hd hk
    exact h.start_volume hb hf hl hn hd hk
  · intro t ht d hd hk
    exact h.balance hb hf ht hd hk
  · intro t ht r x hx d hd hdn hk
    exact h.volumes hb hf ht hx hd hdn hk
  · intro t ht r x hx d hd hdn hk
    exact h.proportions hb hf ht hx hd hdn hk
  · intro t ht r x hx d hd hdn hk
    exact h.maxima hb hf ht hx hd hdn hk
  · intro t ht r d hd side o q
    exact ⟨fun hr => (h.aggregated hb hf ht hd side o q).1 hr, fun hr => (h.aggregated hb hf ht hd side o q).2 hr⟩
  · intro t ht s hs ds hds
    exact h.stores hb hf ht hs hds
  · intro k v hk
    exact ⟨_, _, h.licences hf hk, fun d hd t ht r => h.licence_shown hb hf ht hk hd⟩
  · intro d hd id hid o m hu
    refine told.known id (List.mem_flatMap.2 ⟨d, hd, List.mem_append.2 ?_⟩) o m hu
    rcases hid with e | e | e
    · exact Or.inl (List.mem_append_left _ (by simp [idsOf, e]))
    · exact Or.inl (List.mem_append_right _ (by simp [idsOf, e]))
    · refine Or.inr ?_
      generalize d.initial = i at e
      cases e <;> simp [initialIds, idOf]

end Verif.EndToEnd
