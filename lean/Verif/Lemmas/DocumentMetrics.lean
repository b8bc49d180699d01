import Verif.Lemmas.Document

/-! # What metrics of a document show in a run -/

namespace Verif.EndToEnd

open Verif.State Verif.Solver Verif.Time Verif.Simulation
open Verif.Coupled (World Steps step_iff maxFlows SeenBefore SeenAfter flowBefore Sight IsStorage)
open Verif.Load (Story Side SNum SHolds Told)
open Verif.Schema (Frag Core UMetric Decl)

variable {D : Document} {E : Setting} {F : Frag} {C : Core}

theorem nodeAt_iff (hb : F.build = .ok C) (x : Topology.Name) (i : Nat) :
    nodeAt F x = some i ↔ ∃ d, F.nodes[i]? = some d ∧ d.name = x := by
  rw [← Schema.index_ok (Schema.names_nodup hb)]
  unfold nodeAt
  cases F.index? x <;> simp [Except.toOption]

theorem nodeAt_none (hb : F.build = .ok C) {x : Topology.Name} (h : nodeAt F x = none) : x ∉ F.nodes.map (·.name) := by
  intro hx
  obtain ⟨d, hd, rfl⟩ := List.mem_map.1 hx
  obtain ⟨k, hk⟩ := List.getElem?_of_mem hd
  have := (nodeAt_iff hb d.name k).2 ⟨d, hk, rfl⟩
  rw [h] at this; cases this

theorem edges_length (hb : F.build = .ok C) : C.model.net.edges.length = F.edges.length := by
  have := (Topology.C49_topology _ _ (Schema.build_ok F C hb).1).2.1
  simpa [Frag.builder] using this

/-- Flows of a node by its position. -/
theorem flows_at (hb : F.build = .ok C) (hv : (D.sim F C).Valid) {x : Topology.Name} {i : Nat} (h : nodeAt F x = some i) (f : Nat → ℚ) :
    i < (D.sim F C).net.nodes.length ∧
    Schema.inFlowOf C.model.net f x = some (inSum (D.sim F C).net.edges f i) ∧
    Schema.outFlowOf C.model.net f x = some (outSum (D.sim F C).net.edges f i) ∧
    inSum (D.sim F C).net.edges f i = Schema.into F f x ∧ outSum (D.sim F C).net.edges f i = Schema.outOf F f x := by
  obtain ⟨d, hd, rfl⟩ := (nodeAt_iff hb x i).1 h
  obtain ⟨nd, h1, -, -, -, h5, h6, -⟩ := Schema.nodeFlow_at hb f hd
  obtain ⟨h7, h8⟩ := Schema.find_net hb (List.mem_of_getElem? hd) f
  have e1 : inSum (D.sim F C).net.edges f i = Schema.into F f d.name := (inSum_eq hv f h1).trans h5
  have e2 : outSum (D.sim F C).net.edges f i = Schema.outOf F f d.name := (outSum_eq hv f h1).trans h6
  exact ⟨(List.getElem?_eq_some_iff.1 h1).1, by rw [h7, e1], by rw [h8, e2], e1, e2⟩

theorem allOf_some {α : Type} {g : α → Option Nat} {val : α → Option ℚ} {v : Nat → ℚ} {P : Nat → Prop}
    (hg : ∀ a i, g a = some i → P i ∧ val a = some (v i)) : ∀ (l : List α) (is : List Nat), allOf g l = some is →
    (∀ i ∈ is, P i) ∧ Schema.sumAll (l.map val) = some (is.map v).sum := by
  intro l
  induction l with
  | nil => intro is h; cases h; simp [Schema.sumAll]
  | cons a l ih =>
    intro is h
    unfold allOf at h
    split at h
    · rename_i b bs h1 h2
      cases h
      obtain ⟨h3, h4⟩ := hg a b h1
      obtain ⟨h5, h6⟩ := ih bs h2
      refine ⟨?_, ?_⟩
      · intro i hi
        rcases List.mem_cons.1 hi with rfl | hi
        · exact h3
        · exact h5 i hi
      · simp [h4, Schema.sumAll, h6]
    · cases h

theorem allOf_none {α : Type} {g : α → Option Nat} {val : α → Option ℚ} (hg : ∀ a, g a = none → val a = none) :
    ∀ l : List α, allOf g l = none → Schema.sumAll (l.map val) = none := by
  intro l
  induction l with
  | nil => intro h; cases h
  | cons a l ih =>
    intro h
    cases hb : g a with
    | none => simp [hg a hb, Schema.sumAll]
    | some b =>
      cases hl : allOf g l with
      | none =>
        rw [List.map_cons]
        cases val a with
        | none => rfl
        | some x => simp [Schema.sumAll, ih hl]
      | some bs => simp [allOf, hb, hl] at h

/-- Metrics of flows show the flows. -/
theorem found_flow (hb : F.build = .ok C) (hv : (D.sim F C).Valid) {w : Area} {g : Sight}
    (hs : ∀ c v, w.world.get c = some v ↔ Coupled.Shows (D.sim F C) g c v) {u : UMetric} (hu : IsFlow u = true) (q : ℚ) :
    (∃ look, found F C u = .ok (.shown look) ∧ look w = some q) ↔ u.flow F C.model.net g.flow = some q := by
  have e : (D.sim F C).net.edges.length = F.edges.length := edges_length hb
  have one : ∀ (r : Option Coupled.Comp) (v : Option ℚ),
      (∀ c, r = some c → ∀ x, Coupled.Shows (D.sim F C) g c x ↔ v = some x) → (r = none → v = none) →
      ((∃ look, shownAt r = .ok (.shown look) ∧ look w = some q) ↔ v = some q) := by
    intro r v h1 h2
    cases r with
    | none => rw [h2 rfl]; simp [shownAt]
    | some c =>
      simp only [shownAt, Except.ok.injEq, Load.Found.shown.injEq]
      constructor
      · rintro ⟨look, rfl, h3⟩
        exact (h1 c rfl q).1 ((hs c q).1 h3)
      · intro h3
        exact ⟨_, rfl, (hs c q).2 ((h1 c rfl q).2 h3)⟩
  have eq : ∀ (p : Prop) (a x : ℚ) (v : Option ℚ), p → v = some a → (p ∧ x = a ↔ v = some x) := by
    intro p a x v hp hva
    rw [hva, Option.some.injEq]
    exact ⟨fun h => h.2.symm, fun h => ⟨hp, h.symm⟩⟩
  have ein : ∀ a i, nodeAt F a = some i →
      i < (D.sim F C).net.nodes.length ∧ Schema.inFlowOf C.model.net g.flow a = some (inSum (D.sim F C).net.edges g.flow i) :=
    fun a i h => ⟨(flows_at hb hv h g.flow).1, (flows_at hb hv h g.flow).2.1⟩
  have eout : ∀ a i, nodeAt F a = some i →
      i < (D.sim F C).net.nodes.length ∧ Schema.outFlowOf C.model.net g.flow a = some (outSum (D.sim F C).net.edges g.flow i) :=
    fun a i h => ⟨(flows_at hb hv h g.flow).1, (flows_at hb hv h g.flow).2.2.1⟩
  have nin : ∀ a, nodeAt F a = none → Schema.inFlowOf C.model.net g.flow a = none :=
    fun a h => (Schema.inFlowOf_none hb (nodeAt_none hb h) g.flow).1
  have nout : ∀ a, nodeAt F a = none → Schema.outFlowOf C.model.net g.flow a = none :=
    fun a h => (Schema.inFlowOf_none hb (nodeAt_none hb h) g.flow).2
  have edge : ∀ a i, edgeAt F a = some i → i < (D.sim F C).net.edges.length ∧ Schema.edgeFlowOf F g.flow a = some (g.flow i) := by
    intro a i h
    refine ⟨?_, ?_⟩
    · rw [e]
      exact (List.findIdx?_eq_some_iff_getElem.1 h).1
    · unfold Schema.edgeFlowOf
      unfold edgeAt at h
      rw [h]; rfl
  have nedge : ∀ a, edgeAt F a = none → Schema.edgeFlowOf F g.flow a = none := by
    intro a h
    unfold Schema.edgeFlowOf
    unfold edgeAt at h
    rw [h]; rfl
  cases u with
  | const v =>
    simp only [found, Except.ok.injEq, Load.Found.shown.injEq, UMetric.flow, Option.some.injEq]
    constructor
    · rintro ⟨look, rfl, h⟩; exact Option.some.inj h
    · rintro rfl; exact ⟨_, rfl, rfl⟩
  | nodeInFlow x =>
    refine one (place F C (.nodeInFlow x)) _ ?_ ?_
    · intro c hc v
      obtain ⟨i, hi, rfl⟩ := Option.map_eq_some_iff.1 hc
      exact eq _ _ _ _ (ein x i hi).1 (ein x i hi).2
    · intro h
      exact nin x (by simpa [place] using h)
  | nodeOutFlow x =>
    refine one (place F C (.nodeOutFlow x)) _ ?_ ?_
    · intro c hc v
      obtain ⟨i, hi, rfl⟩ := Option.map_eq_some_iff.1 hc
      exact eq _ _ _ _ (eout x i hi).1 (eout x i hi).2
    · intro h
      exact nout x (by simpa [place] using h)
  | multiNodeInFlow xs =>
    refine one (place F C (.multiNodeInFlow xs)) _ ?_ ?_
    · intro c hc v
      obtain ⟨is, hi, rfl⟩ := Option.map_eq_some_iff.1 hc
      obtain ⟨h1, h2⟩ := allOf_some ein xs is hi
      exact eq _ _ _ _ h1 h2
    · intro h
      exact allOf_none nin xs (by simpa [place] using h)
  | multiNodeOutFlow xs =>
    refine one (place F C (.multiNodeOutFlow xs)) _ ?_ ?_
    · intro c hc v
      obtain ⟨is, hi, rfl⟩ := Option.map_eq_some_iff.1 hc
      obtain ⟨h1, h2⟩ := allOf_some eout xs is hi
      exact eq _ _ _ _ h1 h2
    · intro h
      exact allOf_none nout xs (by simpa [place] using h)
  | multiEdgeFlow xs =>
    refine one (place F C (.multiEdgeFlow xs)) _ ?_ ?_
    · intro c hc v
      obtain ⟨is, hi, rfl⟩ := Option.map_eq_some_iff.1 hc
      obtain ⟨h1, h2⟩ := allOf_some edge xs is hi
      exact eq _ _ _ _ h1 h2
    · intro h
      exact allOf_none nedge xs (by simpa [place] using h)
  | _ => cases hu

theorem comp_eq {r : String} {u : UMetric} (hr : (D.refs r).metric D.net = .ok u) : (D.args E F C).comp r = found F C u := by
  simp only [Document.args]
  cases h : D.refs r with
  | transfer x => rw [h] at hr; cases hr
  | virtual x a => rw [h] at hr; cases hr
  | _ => simp only; rw [← h, hr]

theorem comp_error {r : String} {e : Schema.Err} (hr : (D.refs r).metric D.net = .error e) {x : String} {a b : Area → Option ℚ} :
    (D.args E F C).comp r ≠ .ok (.deficit x a b) := by
  simp only [Document.args]
  cases h : D.refs r with
  | transfer x => simp only; split <;> simp
  | virtual y b =>
    simp only
    split
    · simp
    · split
      · simp
      · rename_i m _
        cases m.place F C <;> simp [shownAt]
  | _ => simp only; rw [← h, hr]; simp

theorem not_deficit {u : UMetric} (hu : ∀ x p, u ≠ .parameter x p) {x : String} {a b : Area → Option ℚ} :
    found F C u ≠ .ok (.deficit x a b) := by
  have key : ∀ r : Option Coupled.Comp, shownAt r ≠ .ok (.deficit x a b) := by
    intro r; cases r <;> simp [shownAt]
  cases u with
  | const q => simp [found]
  | parameter y p => exact absurd rfl (hu y p)
  | _ => exact key _

/-- A metric that is no deficit shows what it finds. -/
theorem snum_shown {S : Story Area} {t : Nat} {r : String} {u : UMetric} (hr : (D.refs r).metric D.net = .ok u)
    (hu : ∀ x p, u ≠ .parameter x p) (side : Side) (o : Option String) (q : ℚ) :
    SNum (D.args E F C) S side t o (.component r) q ↔ ∃ look, found F C u = .ok (.shown look) ∧ look (S.net side t) = some q := by
  have hc : (D.args E F C).comp r = found F C u := comp_eq hr
  simp only [SNum]
  rw [hc]
  constructor
  · rintro ⟨fd, h1, h2⟩
    cases fd with
    | shown look => exact ⟨look, h1, h2⟩
    | deficit x a b => exact absurd h1 (not_deficit hu)
  · rintro ⟨look, h1, h2⟩
    exact ⟨_, h1, h2⟩

section
variable {n : Nat} {S : Story Area} {input : Nat → Inp} {record : Nat → Record} {st : Nat → SimState}

theorem Simulated.seen (h : Simulated D E F C n S input record st) (hv : (D.sim F C).Valid) {t : Nat} (ht : t < n) :
    SeenBefore (D.sim F C) input record t (S.early t).world.get ∧ SeenAfter (D.sim F C) input record t (S.late t).world.get := by
  obtain ⟨so, e1⟩ := h.early t ht
  obtain ⟨so', e2⟩ := h.late t ht
  exact ⟨(h.steps.before_iff hv.model ht so _).2 (by rw [e1]), (h.steps.after_iff hv.model ht so' _).2 (by rw [e2])⟩

theorem flowBefore_eq (record : Nat → Record) (t : Nat) : flowBefore record t = previous (fun t => (record t).flow) t := by
  cases t <;> rfl

theorem Simulated.sight (h : Simulated D E F C n S input record st) (hv : (D.sim F C).Valid) {t : Nat} (ht : t < n) (side : Side) :
    ∃ g, (∀ c v, (S.net side t).world.get c = some v ↔ Coupled.Shows (D.sim F C) g c v) ∧
      g.flow = flowsAt (fun t => (record t).flow) t side ∧
      ∀ i, IsStorage (D.sim F C) i → (match side with | .early => (record t).pre | .late => (record t).post).nodeVolume i = .ok (g.volume i) := by
  obtain ⟨⟨g, g1, -, g3⟩, ⟨g', g1', -, g3'⟩⟩ := h.seen hv ht
  cases side with
  | early => exact ⟨g, g3, by rw [g1.flow, flowBefore_eq]; rfl, g1.volume⟩
  | late => exact ⟨g', g3', g1'.flow, g1'.volume⟩

theorem Simulated.flows (h : Simulated D E F C n S input record st) (hb : F.build = .ok C) (hv : (D.sim F C).Valid) {t : Nat}
    (ht : t < n) {r : String} {u : UMetric} (hr : (D.refs r).metric D.net = .ok u) (hu : IsFlow u = true) (side : Side)
    (o : Option String) (q : ℚ) : SNum (D.args E F C) S side t o (.component r) q ↔
      u.flow F C.model.net (flowsAt (fun t => (record t).flow) t side) = some q := by
  rw [snum_shown hr (by rintro x p rfl; cases hu)]
  obtain ⟨g, g1, g2, -⟩ := h.sight hv ht side
  rw [found_flow hb hv g1 hu, g2]

theorem Simulated.transfers (h : Simulated D E F C n S input record st) {t : Nat} (ht : t < n) {r x : String} (hr : D.refs r = .transfer x)
    (hn : E.transfers.Nodup) {k : Nat} (hk : E.transfers[k]? = some x) (side : Side) (o : Option String) (q : ℚ) :
    SNum (D.args E F C) S side t o (.component r) q ↔ (E.given t)[k]? = some q := by
  have hi : E.transfers.findIdx? (fun y => y = x) = some k := by
    obtain ⟨hlt, hg⟩ := List.getElem?_eq_some_iff.1 hk
    refine List.findIdx?_eq_some_iff_getElem.2 ⟨hlt, by simpa using hg, fun j hj => ?_⟩
    have : E.transfers[j]'(by omega) ≠ E.transfers[k] := fun he => by
      have := (List.Nodup.getElem_inj_iff hn).1 he
      omega
    simpa [hg] using this
  have hc : (D.args E F C).comp r = .ok (.shown fun w => w.given[k]?) := by simp only [Document.args, hr, hi]
  have hw : (S.net side t).given = E.given t := by
    cases side with
    | early => obtain ⟨so, e⟩ := h.early t ht; exact congrArg Area.given e
    | late => obtain ⟨so, e⟩ := h.late t ht; exact congrArg Area.given e
  simp only [SNum]
  rw [hc, ← hw]
  constructor
  · rintro ⟨fd, h1, h2⟩
    cases h1
    exact h2
  · intro h2
    exact ⟨_, rfl, h2⟩

theorem Simulated.deficits (h : Simulated D E F C n S input record st) (hb : F.build = .ok C) (hv : (D.sim F C).Valid) {t : Nat}
    (ht : t < n) {r x : String} (hr : (D.refs r).metric D.net = .ok (.parameter x "deficit")) {o : Option String} {q : ℚ}
    (hq : SNum (D.args E F C) S .late t o (.component r) q) : ∃ d ∈ F.nodes, d.name = (x, none) ∧
      ∃ m, ValueIs (input t).metric d.data.maxFlow f64MAX m ∧ q = max (m - Schema.into F (record t).flow (x, none)) 0 := by
  have hc : (D.args E F C).comp r = found F C (.parameter x "deficit") := comp_eq hr
  simp only [SNum] at hq
  rw [hc] at hq
  obtain ⟨fd, h1, h2⟩ := hq
  simp only [found] at h1
  cases hi : nodeAt F (x, none) with
  | none => rw [hi] at h1; cases h1
  | some i =>
    rw [hi] at h1
    simp only [if_true, Except.ok.injEq] at h1
    subst h1
    obtain ⟨a, b, h3, h4, rfl⟩ := h2.1 trivial
    obtain ⟨d, hd, hdn⟩ := (nodeAt_iff hb _ _).1 hi
    obtain ⟨-, ⟨g, g1, g2, g3⟩⟩ := h.seen hv ht
    obtain ⟨-, h5⟩ := (g3 _ _).1 h3
    obtain ⟨-, -, -, h6⟩ := (g2 i b).1 ((g3 _ _).1 h4)
    have hdata : (D.sim F C).data i = d.data := Schema.data_at hb hd
    rw [hdata] at h6
    refine ⟨d, List.mem_of_getElem? hd, hdn, b, h6, ?_⟩
    rw [h5, g1.flow, (flows_at hb hv hi _).2.2.2.1]

theorem stored_at (hb : F.build = .ok C) {k : Nat} {d : Decl} (hk : F.nodes[k]? = some d) (s : StepState) :
    Schema.stored F s d.name = s.volume k := by
  have hget : (F.nodes.map (·.name))[k]? = some d.name := by simp [hk]
  obtain ⟨hlt, hg⟩ := List.getElem?_eq_some_iff.1 hget
  unfold Schema.stored
  rw [← hg, (Schema.names_nodup hb).idxOf_getElem k hlt]

/-- Volumes of a storage in a step. -/
theorem Simulated.volume (h : Simulated D E F C n S input record st) (hb : F.build = .ok C) (hf : Fit D E F C n) {t : Nat}
    (ht : t < n) {k : Nat} {d : Decl} (hk : F.nodes[k]? = some d) (hs : d.kind = .storage) :
    IsStorage (D.sim F C) k ∧ ∃ v, (record t).pre.nodeVolume k = .ok v ∧
      (record t).post.nodeVolume k = .ok (v + (E.time t).days * Schema.coreFlow F (record t).flow d) ∧
      Schema.stored F (stateAt D F C input record t) d.name = some v := by
  obtain ⟨nd, h1, h2, -, h4, -, -, h7⟩ := Schema.nodeFlow_at hb (record t).flow hk
  have hok := Coupled.runOk_at n _ _ _ (h.runOk hf) t ht
  obtain ⟨lo, hi, v, -, a2, a3, -⟩ := hok.storage nd (List.mem_of_getElem? h1) (h4.trans hs)
  rw [h2] at a2 a3
  rw [h7, h.time t ht] at a3
  refine ⟨⟨nd, h1, h4.trans hs⟩, v, a2, a3, ?_⟩
  rw [stored_at hb hk]
  simp [stateAt, Sim.stepState, a2, Except.toOption]

theorem listed_lt (hl : D.listed F = true) {d : Decl} (hd : d ∈ F.nodes) {id : Nat} (hid : id ∈ initialIds d.initial) : id < D.doc.uses.length := by
  unfold Document.listed at hl
  simp only [List.all_eq_true, decide_eq_true_eq] at hl
  have := hl d hd id hid
  simpa [Load.Doc.uses, List.length_flatMap, Function.comp_def] using this

theorem begins {σ : Nat → Option ℚ} {i : Option Schema.Initial} (h : ∀ id ∈ initialIds i, ∃ q, σ id = some q) (hi : ℚ) :
    Begins σ hi i ((volumeOf σ i).get hi) := by
  have get : ∀ m : Metric, (∀ id ∈ idOf m, ∃ q, σ id = some q) → ∃ q, m.get σ = some q := by
    intro m hm
    cases m with
    | const v => exact ⟨v, rfl⟩
    | dyn id => exact hm id (by simp [idOf])
  match i with
  | none => rfl
  | some (.absolute _) => rfl
  | some (.proportional _) => rfl
  | some (.distributedAbsolute a prior) =>
    obtain ⟨q, hq⟩ := get prior fun id hid => h id hid
    exact ⟨q, hq, by simp [volumeOf, Schema.Initial.read, hq, InitialVolume.get]⟩
  | some (.distributedProportional total p prior) =>
    obtain ⟨q, hq⟩ := get prior fun id hid => h id (List.mem_append_right _ hid)
    obtain ⟨q', hq'⟩ := get total fun id hid => h id (List.mem_append_left _ hid)
    exact ⟨q', q, hq', hq, by simp [volumeOf, Schema.Initial.read, hq, hq', InitialVolume.get]⟩

theorem Simulated.start_volume (h : Simulated D E F C n S input record st) (hb : F.build = .ok C) (hf : Fit D E F C n) (hl : D.listed F = true)
    (ht : 0 < n) {d : Decl} (hd : d ∈ F.nodes) (hs : d.kind = .storage) :
    ∃ hi v, ValueIs (input 0).metric d.data.maxVolume f64MAX hi ∧ Begins (input 0).metric hi d.initial v ∧
      Schema.stored F (stateAt D F C input record 0) d.name = some v := by
  obtain ⟨k, hk⟩ := List.getElem?_of_mem hd
  obtain ⟨nd, h1, h2, -, h4, -⟩ := Schema.nodeFlow_at hb (record 0).flow hk
  have hc := carries_at n _ _ _ (h.runOk hf) 0 ht
  obtain ⟨lo, hi, a1, a2⟩ := hc.storage nd (List.mem_of_getElem? h1) (h4.trans hs)
  rw [h.time 0 ht, hf.index 0 ht, if_pos rfl, h2] at a2
  have hdata : (D.sim F C).data k = d.data := Schema.data_at hb hk
  rw [h2, hdata] at a1
  refine ⟨hi, _, a1.2, begins (fun id hid => h.present 0 ht id (listed_lt hl hd hid)) hi, ?_⟩
  rw [stored_at hb hk]
  have hiv : (D.sim F C).iv (input 0).metric k = volumeOf (input 0).metric d.initial := by simp [Document.sim, hk]
  simp [stateAt, Sim.stepState, a2, Except.toOption, hiv]

theorem Simulated.balance (h : Simulated D E F C n S input record st) (hb : F.build = .ok C) (hf : Fit D E F C n) {t : Nat}
    (ht : t + 1 < n) {d : Decl} (hd : d ∈ F.nodes) (hs : d.kind = .storage) :
    ∃ v, Schema.stored F (stateAt D F C input record t) d.name = some v ∧
      Schema.stored F (stateAt D F C input record (t + 1)) d.name =
        some (v + (E.time t).days * Schema.coreFlow F (record t).flow d) := by
  obtain ⟨k, hk⟩ := List.getElem?_of_mem hd
  obtain ⟨-, v, -, h2, h3⟩ := h.volume hb hf (show t < n by omega) hk hs
  refine ⟨v, h3, ?_⟩
  obtain ⟨nd, b1, b2, -, b4, -⟩ := Schema.nodeFlow_at hb (record t).flow hk
  have hc := carries_at n _ _ _ (h.runOk hf) (t + 1) ht
  obtain ⟨lo, hi, -, a2⟩ := hc.storage nd (List.mem_of_getElem? b1) (b4.trans hs)
  rw [h.time (t + 1) ht, hf.index (t + 1) ht, if_neg (by omega), b2] at a2
  rw [stored_at hb hk]
  have : (record (t + 1)).pre.nodeVolume k = .ok (v + (E.time t).days * Schema.coreFlow F (record t).flow d) := a2.trans h2
  simp [stateAt, Sim.stepState, this, Except.toOption]

theorem Simulated.volumes (h : Simulated D E F C n S input record st) (hb : F.build = .ok C) (hf : Fit D E F C n) {t : Nat}
    (ht : t < n) {r : String} {x : Topology.Name} (hr : (D.refs r).metric D.net = .ok (.nodeVolume x)) {d : Decl} (hd : d ∈ F.nodes)
    (hdn : d.name = x) (hs : d.kind = .storage) :
    ∃ v, Schema.stored F (stateAt D F C input record t) x = some v ∧
      (∀ o q, SNum (D.args E F C) S .early t o (.component r) q ↔ q = v) ∧
      ∀ o q, SNum (D.args E F C) S .late t o (.component r) q ↔ q = v + (E.time t).days * Schema.coreFlow F (record t).flow d := by
  obtain ⟨k, hk⟩ := List.getElem?_of_mem hd
  obtain ⟨h0, v, h1, h2, h3⟩ := h.volume hb hf ht hk hs
  subst hdn
  have hat := (nodeAt_iff hb d.name k).2 ⟨d, hk, rfl⟩
  have key : ∀ side o q, SNum (D.args E F C) S side t o (.component r) q ↔
      (match side with | .early => (record t).pre | .late => (record t).post).nodeVolume k = .ok q := by
    intro side o q
    rw [snum_shown hr (by simp)]
    obtain ⟨g, g1, -, g3⟩ := h.sight (hf.sim hb) ht side
    rw [g3 k h0]
    have : found F C (.nodeVolume d.name) = .ok (.shown fun w => w.world.get (.nodeVolume k)) := by simp [found, place, hat]
    rw [this]
    simp only [Except.ok.injEq, Load.Found.shown.injEq]
    constructor
    · rintro ⟨look, rfl, h5⟩
      exact ((g1 _ _).1 h5).2.symm
    · rintro rfl
      exact ⟨_, rfl, (g1 _ _).2 ⟨h0, rfl⟩⟩
  refine ⟨v, h3, fun o q => ?_, fun o q => ?_⟩
  · rw [key .early]; simp only [h1, Except.ok.injEq]; exact eq_comm
  · rw [key .late]; simp only [h2, Except.ok.injEq]; exact eq_comm

theorem Simulated.licences (h : Simulated D E F C n S input record st) (hf : Fit D E F C n) {k : Nat} {v : VStore}
    (hk : C.model.vs[k]? = some v) : Drawn (D.licences k) E C n (fun t => (record t).flow) (stateAt D F C input record) k v
      (fun t => ((record t).pre.vsVolume k).toOption.getD 0) (fun t => ((record t).post.vsVolume k).toOption.getD 0) := by
  have hat : (D.sim F C).vsNodes[k]? = some ((D.licences k).node v) := by simp [Document.sim, List.getElem?_mapIdx, hk]
  have hact : ∀ t < n, (stateAt D F C input record t).vsActive k = (D.licences k).activePeriod.isActive (E.time t).date.date := by
    intro t ht
    simp only [stateAt, Sim.stepState, hat, Option.any_some, VSNode.isActive, Licence.node, h.time t ht]
  have huse : ∀ t < n, (D.sim F C).use ((D.licences k).node v) (input t).t (record t).flow =
      if (stateAt D F C input record t).vsActive k = true then vsUse C.model.net (record t).flow v else 0 := by
    intro t ht
    rw [hact t ht]
    simp only [Sim.use, VSNode.isActive, Licence.node, h.time t ht, zip_members]
    rfl
  have hstep : ∀ t < n, ∃ v', (record t).pre.vsVolume k = .ok v' ∧
      (record t).post.vsVolume k = .ok (v' - (E.time t).days * if (stateAt D F C input record t).vsActive k = true then
        vsUse C.model.net (record t).flow v else 0) ∧
      (stateAt D F C input record t).vsBounds k = some (max (v' - (D.licences k).lo) 0, max ((D.licences k).hi - v') 0) ∧
      (D.licences k).lo ≤ v' - (E.time t).days * (if (stateAt D F C input record t).vsActive k = true then
        vsUse C.model.net (record t).flow v else 0) ∧
      v' - (E.time t).days * (if (stateAt D F C input record t).vsActive k = true then
        vsUse C.model.net (record t).flow v else 0) ≤ (D.licences k).hi := by
    intro t ht
    have hok := Coupled.runOk_at n _ _ _ (h.runOk hf) t ht
    obtain ⟨lo, hi, v', a1, a2, a3, a4, a5⟩ := hok.vs k _ hat
    obtain ⟨rfl, rfl⟩ := licence_bounds a1
    rw [huse t ht, h.time t ht] at a3 a4 a5
    obtain ⟨lo, hi, v'', b1, b2, b3⟩ := (h.shows hf ht).vs k (List.getElem?_eq_some_iff.1 hat).1
    obtain ⟨rfl, rfl⟩ := licence_bounds b1
    rw [a2, Except.ok.injEq] at b2
    subst b2
    exact ⟨v', a2, a3, b3, a4, a5⟩
  have hcarry : ∀ t < n, (D.licences k).rollingWindow = none →
      ((record t).pre.vsVolume k = .ok (D.licences k).full ∨ (record t).pre.vsVolume k = (oldAt (D.sim F C).initialNetwork record t).vsVolume k) ∧
      (t = 0 ∨ (stateAt D F C input record t).vsActive k = false → (record t).pre.vsVolume k = .ok (D.licences k).full) ∧
      (t ≠ 0 → (stateAt D F C input record t).vsActive k = true → (D.licences k).reset = .never →
        (record t).pre.vsVolume k = (oldAt (D.sim F C).initialNetwork record t).vsVolume k) := by
    intro t ht hr
    have hc := carries_at n _ _ _ (h.runOk hf) t ht
    obtain ⟨lo, hi, v', back, a1, a2, a3, a4, a5, a6⟩ := hc.vs k _ hat
    obtain ⟨rfl, rfl⟩ := licence_bounds a1
    have hfull : resetTo ((D.licences k).node v) (D.licences k).hi = (D.licences k).full := by
      simp only [resetTo, Licence.node, Licence.full]
      cases (D.licences k).resetVolume <;> rfl
    rw [hfull] at a4 a5
    rw [a3 hr, mul_zero, add_zero] at a2
    have hi' : (input t).t.index = t := by rw [h.time t ht]; exact hf.index t ht
    have ha' : ((D.licences k).node v).isActive (input t).t = (stateAt D F C input record t).vsActive k := by
      rw [hact t ht, h.time t ht]; rfl
    rw [hi', ha'] at a5 a6
    refine ⟨?_, ?_, ?_⟩
    · rcases a4 with e | e
      · exact .inl (by rw [a2, e])
      · exact .inr (by rw [a2, e])
    · intro e; rw [a2, a5 e]
    · intro e1 e2 e3; rw [a2, a6 e1 e2 e3]
  refine ⟨hact, ?_, ?_, ?_, ?_, ?_, ?_⟩
  · intro t ht
    obtain ⟨v', a1, -, a3, -⟩ := hstep t ht
    simpa [a1, Except.toOption] using a3
  · intro t ht
    obtain ⟨v', a1, a2, -⟩ := hstep t ht
    simp only [a1, a2, Except.toOption, Option.getD_some]
  · intro t ht
    obtain ⟨v', a1, a2, -, a4, a5⟩ := hstep t ht
    simp only [a2, Except.toOption, Option.getD_some]
    exact ⟨a4, a5⟩
  · intro hr t ht e
    simp [(hcarry t ht hr).2.1 e, Except.toOption]
  · intro hr t ht
    rcases (hcarry (t + 1) ht hr).1 with e | e
    · exact .inl (by simp [e, Except.toOption])
    · exact .inr (by rw [e]; rfl)
  · intro hr hn t ht e
    simp only [(hcarry (t + 1) ht hr).2.2 (by omega) e hn]
    rfl

end

end Verif.EndToEnd
