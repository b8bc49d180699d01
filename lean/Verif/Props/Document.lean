import Verif.Lemmas.DocumentVirtual
import Verif.Props.SchemaLimits

/-!
# C99: documents from end to end

From the nodes, edges, parameters and metrics of a document to the flows, volumes and values of its run.
-/

namespace Verif.EndToEnd

open Verif.State Verif.Solver Verif.Time Verif.Simulation
open Verif.Coupled (World)
open Verif.Load (Story Side SNum SHolds)
open Verif.Schema (Frag Core UMetric Decl SNode received sent stored)

/-- **C99.** A run of a document that completes has a story: all parameters of the document have the values it defines, the flows of every step are
allowed by the values of its metrics and of least cost, and what metrics show of flows and volumes is what happens in the network. The values reported are
those of the metrics of metric sets at the end. Besides what is left out of the model, the full statement would not ask for `Fit`; without it it is false as shown with C60, C86
and C97. -/
theorem C99_run_partial (D : Document) (E : Setting) (n : Nat) (w : Area) (qs : List ℚ) (hr : D.run E n = .ran (.done w qs))
    (hf : ∀ F C, Schema.Built D.numbers D.net F C → Fit D E F C (n + 1)) :
    ∃ F C S f st, Schema.Built D.numbers D.net F C ∧ Happens D E F C (n + 1) S f st ∧
      List.Forall₂ (SNum (D.args E F C) S .late n none) D.doc.outputs qs := by
  unfold Document.run at hr
  cases hc : D.net.compile D.numbers with
  | error e => rw [hc] at hr; cases hr
  | ok F =>
    rw [hc] at hr
    simp only at hr
    cases hb : F.build with
    | error e => rw [hb] at hr; cases hr
    | ok C =>
      rw [hb] at hr
      simp only at hr
      have hbuilt : Schema.Built D.numbers D.net F C := ⟨hc, hb⟩
      have hf := hf F C hbuilt
      split at hr
      · rename_i hl
        cases hs : (D.sim F C).initial E.big E.negBig with
        | error e => rw [hs] at hr; cases hr
        | ok s =>
          rw [hs] at hr
          simp only [Ending.ran.injEq] at hr
          obtain ⟨S, told, -, hout⟩ := Load.C96_run_partial (D.args E F C) D.doc hf.apart (fun a b => hf.codes a b) _ _ _ _ _ _ _ hr
          obtain ⟨f, st, h⟩ := happens_of_told hb hf hl hs told
          exact ⟨F, C, S, f, st, hbuilt, h, hout⟩
      · cases hr

/-! ## In terms of nodes -/

section
variable {D : Document} {E : Setting} {F : Frag} {C : Core} (h : Schema.Built D.numbers D.net F C) {n : Nat} {S : Story Area}
  {f : Nat → Nat → ℚ} {st : Nat → StepState} (H : Happens D E F C n S f st) {x : SNode} (hx : x ∈ D.net.nodes)

/-- The value of an optional metric of a node, or the default. -/
def Valued (D : Document) (A : Load.Args Area) (S : Story Area) (t : Nat) (m : Option Metric) (default q : ℚ) : Prop :=
  match m with
  | none => q = default
  | some m => Means D A S t m q

include H in
theorem valued {t : Nat} (ht : t < n) {m : Option Metric} {d q : ℚ} (hv : ValueIs (st t).metric m d q) :
    Valued D (D.args E F C) S t m d q := by
  cases m with
  | none => exact hv
  | some m =>
    cases m with
    | const v =>
      simp only [ValueIs, Metric.get, Option.some.injEq] at hv
      exact hv.symm
    | dyn id => exact H.values t ht id q hv

include H in
theorem limits {t : Nat} (ht : t < n) {lo hi : Option Metric} {q : ℚ}
    (hl : AtLeast (st t).metric lo 0 q ∧ AtMost (st t).metric hi f64MAX q) :
    (∃ a, Valued D (D.args E F C) S t lo 0 a ∧ a ≤ q) ∧ ∃ b, Valued D (D.args E F C) S t hi f64MAX b ∧ q ≤ b := by
  obtain ⟨a, h1, h2⟩ := Simulation.atLeast_iff.1 hl.1
  obtain ⟨b, h3, h4⟩ := Simulation.atMost_iff.1 hl.2
  exact ⟨⟨a, valued H ht h1, h2⟩, b, valued H ht h3, h4⟩

include h H hx

/-- **C99 (inputs).** In every step an input sends an amount within the values that its metrics have in that step. -/
theorem C99_input {b : Schema.FlowN} (hb : x.body = .input b) (t : Nat) (ht : t < n) :
    (∃ lo, Valued D (D.args E F C) S t b.minFlow 0 lo ∧ lo ≤ sent D.net F (f t) x.name) ∧
    ∃ hi, Valued D (D.args E F C) S t b.maxFlow f64MAX hi ∧ sent D.net F (f t) x.name ≤ hi :=
  limits H ht (Schema.C68_input h (H.allowed t ht) hx hb)

/-- **C99 (outputs).** In every step an output receives an amount within the values that its metrics have in that step. -/
theorem C99_output {b : Schema.FlowN} (hb : x.body = .output b) (t : Nat) (ht : t < n) :
    (∃ lo, Valued D (D.args E F C) S t b.minFlow 0 lo ∧ lo ≤ received D.net F (f t) x.name) ∧
    ∃ hi, Valued D (D.args E F C) S t b.maxFlow f64MAX hi ∧ received D.net F (f t) x.name ≤ hi :=
  limits H ht (Schema.C68_output h (H.allowed t ht) hx hb)

/-- **C99 (links).** In every step a link without soft constraints passes on what it receives, within the values that its metrics have
in that step. -/
theorem C99_link {b : Schema.LinkN} (hb : x.body = .link b) (hs : b.softMin = none) (t : Nat) (ht : t < n) :
    received D.net F (f t) x.name = sent D.net F (f t) x.name ∧
    (∃ lo, Valued D (D.args E F C) S t b.minFlow 0 lo ∧ lo ≤ sent D.net F (f t) x.name) ∧
    ∃ hi, Valued D (D.args E F C) S t b.maxFlow f64MAX hi ∧ sent D.net F (f t) x.name ≤ hi := by
  have h1 := Schema.C68_link h (H.allowed t ht) hx hb
  exact ⟨Schema.C65_through h (H.allowed t ht) hx (by rw [hb]; rfl), limits H ht ⟨h1.1, h1.2 (Or.inl hs)⟩⟩

/-- **C99 (catchments).** In every step a catchment sends exactly the value that its flow has in that step. -/
theorem C99_catchment {b : Schema.CatchmentN} (hb : x.body = .catchment b) {m : Metric} (hm : b.flow = some m) (t : Nat) (ht : t < n) :
    Means D (D.args E F C) S t m (sent D.net F (f t) x.name) :=
  valued H ht (m := some m) (d := 0) (Schema.C68_catchment h (H.allowed t ht) hx hb hm)

omit h hx in
theorem shows_of_reports {t : Nat} (ht : t < n) {r : String} {m : Except Schema.Err UMetric} (hr : (D.refs r).metric D.net = m) {side : Side} {v : ℚ}
    (hv : Schema.Reports F C (flowsAt f t side) m v) (o : Option String) (q : ℚ) :
    SNum (D.args E F C) S side t o (.component r) q ↔ q = v := by
  obtain ⟨u, rfl, hu⟩ := hv
  have hfl : IsFlow u = true := by cases u <;> first | rfl | cases hu
  rw [H.flows t ht r u hr hfl side o q, hu, Option.some.injEq]
  exact eq_comm

omit H in
theorem target_node (a : Option Schema.Attr) : (Target.node x.name a).metric D.net = x.metric a := by
  simp only [Target.metric, Schema.node?_of_mem (Schema.validate_ok D.net (Schema.compile_parts h.compiled).choose_spec.choose_spec.choose_spec.valid).1 hx]

/-- **C99 (inflow).** A metric of the inflow of a node shows at the end of a step what the node receives in it, and before the
allocation what it received in the step before. -/
theorem C99_inflow {r : String} (hr : D.refs r = .node x.name (some .inflow)) {u : UMetric} (hu : x.metric (some .inflow) = .ok u)
    (t : Nat) (ht : t < n) (o : Option String) (q : ℚ) :
    (SNum (D.args E F C) S .late t o (.component r) q ↔ q = received D.net F (f t) x.name) ∧
    ∀ s, t = s + 1 → (SNum (D.args E F C) S .early t o (.component r) q ↔ q = received D.net F (f s) x.name) := by
  have hm : (D.refs r).metric D.net = x.metric (some .inflow) := by rw [hr]; exact target_node h hx _
  refine ⟨shows_of_reports H ht hm (side := .late) (Schema.C66_inflow h (H.allowed t ht) hx hu) o q, ?_⟩
  rintro s rfl
  exact shows_of_reports H ht hm (side := .early) (Schema.C66_inflow h (H.allowed s (by omega)) hx hu) o q

/-- **C99 (outflow).** The same of the outflow, but for abstractions and for rivers with both routing and a loss (see C66). -/
theorem C99_outflow {r : String} (hr : D.refs r = .node x.name (some .outflow)) {u : UMetric} (hu : x.metric (some .outflow) = .ok u)
    (hab : ∀ b, x.body ≠ .abstraction b) (hriv : ∀ b, x.body = .river b → b.loss = none ∨ b.routing = none)
    (t : Nat) (ht : t < n) (o : Option String) (q : ℚ) :
    (SNum (D.args E F C) S .late t o (.component r) q ↔ q = sent D.net F (f t) x.name) ∧
    ∀ s, t = s + 1 → (SNum (D.args E F C) S .early t o (.component r) q ↔ q = sent D.net F (f s) x.name) := by
  have hm : (D.refs r).metric D.net = x.metric (some .outflow) := by rw [hr]; exact target_node h hx _
  refine ⟨shows_of_reports H ht hm (side := .late) (Schema.C66_outflow h (H.allowed t ht) hx hu hab hriv) o q, ?_⟩
  rintro s rfl
  exact shows_of_reports H ht hm (side := .early) (Schema.C66_outflow h (H.allowed s (by omega)) hx hu hab hriv) o q

omit hx in
/-- **C99 (edges).** A metric of an edge of the document shows at the end of a step what flows along this edge in it, and before the allocation what
flowed in the step before. -/
theorem C99_edge {e : Schema.SEdge} (he : e ∈ D.net.edges) {r : String} (hr : D.refs r = .edge e) (t : Nat) (ht : t < n) (o : Option String) (q : ℚ) :
    (SNum (D.args E F C) S .late t o (.component r) q ↔ q = Schema.edgeFlow D.net F (f t) e) ∧
    ∀ s, t = s + 1 → (SNum (D.args E F C) S .early t o (.component r) q ↔ q = Schema.edgeFlow D.net F (f s) e) := by
  have hm : (D.refs r).metric D.net = D.net.edgeMetric e := by rw [hr]; rfl
  refine ⟨shows_of_reports H ht hm (side := .late) (Schema.C66_edge h he) o q, ?_⟩
  rintro s rfl
  exact shows_of_reports H ht hm (side := .early) (Schema.C66_edge h he) o q

/-- **C99 (deficits).** What a metric of the deficit of an output shows at the end of a step and what the output receives in it add up to
the value that its maximum flow has in that step. -/
theorem C99_deficit {b : Schema.FlowN} (hb : x.body = .output b) {r : String} (hr : D.refs r = .node x.name (some .deficit))
    (t : Nat) (ht : t < n) (o : Option String) (q : ℚ) (hq : SNum (D.args E F C) S .late t o (.component r) q) :
    ∃ m, Valued D (D.args E F C) S t b.maxFlow f64MAX m ∧ q + received D.net F (f t) x.name = m ∧ 0 ≤ q := by
  have hm : (D.refs r).metric D.net = .ok (.parameter x.name "deficit") := by
    rw [hr, target_node h hx]
    unfold SNode.metric
    simp only [hb, Option.getD_some]
  obtain ⟨d, hd, hdn, m, hv, he⟩ := H.deficits t ht r x.name hm o q hq
  obtain ⟨G, hG⟩ := Schema.frag_of_mem h.compiled hx
  have hG' := hG
  unfold SNode.frag at hG'
  simp only [hb, Except.ok.injEq, Schema.FlowN.outputFrag] at hG'
  have hd' : ⟨(x.name, none), .output, Schema.flowData b.cost b.minFlow b.maxFlow, none⟩ ∈ G.nodes := by subst hG'; simp
  have hE : G.edges = [] := by subst hG'; rfl
  have hrec := Schema.received_eq h hx hG (f t) (S := [(x.name, none)]) (by unfold SNode.inputs; simp only [hb]) (by simp) (by simp [hE])
  simp only [List.map_cons, List.map_nil, List.sum_cons, List.sum_nil, add_zero] at hrec
  have hsame : d = ⟨(x.name, none), .output, Schema.flowData b.cost b.minFlow b.maxFlow, none⟩ :=
    List.inj_on_of_nodup_map (Schema.names_nodup h.built) hd (Schema.mem_nodes h.compiled hx hG hd') hdn
  rw [hsame] at hv
  obtain ⟨m', hm', hle⟩ := Simulation.atMost_iff.1 (Schema.C68_output h (H.allowed t ht) hx hb).2
  have hmm : m' = m := by
    simp only [Schema.flowData] at hv
    cases hmf : b.maxFlow with
    | none => rw [hmf] at hv hm'; exact hm'.trans hv.symm
    | some k =>
      rw [hmf] at hv hm'
      simp only [ValueIs] at hv hm'
      rw [hv] at hm'
      exact (Option.some.inj hm').symm
  subst hmm
  rw [hrec] at he
  refine ⟨m', valued H ht hm', ?_, ?_⟩
  · rw [he, max_eq_left (by linarith)]; ring
  · rw [he]; exact le_max_right _ _

/-- The course of the volume of a storage over a run: `vol t` is the volume at the start of step `t`. -/
structure StoreCourse (D : Document) (E : Setting) (F : Frag) (C : Core) (n : Nat) (S : Story Area) (f : Nat → Nat → ℚ) (x : SNode)
    (b : Schema.StorageN) (vol : Nat → ℚ) : Prop where
  /-- it starts as the document says -/
  start : 0 < n → ∃ hi, Valued D (D.args E F C) S 0 b.maxVolume f64MAX hi ∧
    vol 0 = match b.initial with | .proportional p => hi * p | .absolute v => v
  /-- and changes by what the storage receives less what it sends -/
  change : ∀ t < n, vol (t + 1) = vol t + (E.time t).days * (received D.net F (f t) x.name - sent D.net F (f t) x.name)
  /-- within the values of its bounds -/
  within : ∀ t < n, (∃ lo, Valued D (D.args E F C) S t b.minVolume 0 lo ∧ lo ≤ vol (t + 1)) ∧
    ∃ hi, Valued D (D.args E F C) S t b.maxVolume f64MAX hi ∧ vol (t + 1) ≤ hi
  /-- and the metric of the volume shows it -/
  shown : ∀ r, D.refs r = .node x.name (some .volume) ∨ D.refs r = .node x.name none → ∀ t < n, ∀ o q,
    (SNum (D.args E F C) S .early t o (.component r) q ↔ q = vol t) ∧
    (SNum (D.args E F C) S .late t o (.component r) q ↔ q = vol (t + 1))
  /-- and the metric of the proportional volume shows its share of the maximum of this step at the end of the step, but of the maximum
  of the step before until then -/
  share : ∀ r, D.refs r = .node x.name (some .proportionalVolume) → ∀ t < n, ∃ now before,
    Valued D (D.args E F C) S t b.maxVolume f64MAX now ∧ Valued D (D.args E F C) S (t - 1) b.maxVolume f64MAX before ∧ ∀ o q,
      (SNum (D.args E F C) S .early t o (.component r) q ↔ q = Coupled.share (vol t) before) ∧
      (SNum (D.args E F C) S .late t o (.component r) q ↔ q = Coupled.share (vol (t + 1)) now)
  /-- and the metric of the maximum volume shows the maximum of this step -/
  most : ∀ r, D.refs r = .node x.name (some .maxVolume) → ∀ t < n, ∃ now,
    Valued D (D.args E F C) S t b.maxVolume f64MAX now ∧ ∀ side o q, SNum (D.args E F C) S side t o (.component r) q ↔ q = now

omit H in
/-- The core node of a storage and its flows. -/
theorem storage_core {b : Schema.StorageN} (hb : x.body = .storage b) :
    (⟨(x.name, none), .storage, Schema.volumeData b.cost b.minVolume b.maxVolume, some b.initial.toInitial⟩ : Decl) ∈ F.nodes ∧
    ∀ t, Schema.coreFlow F (f t) ⟨(x.name, none), .storage, Schema.volumeData b.cost b.minVolume b.maxVolume, some b.initial.toInitial⟩ =
      received D.net F (f t) x.name - sent D.net F (f t) x.name := by
  obtain ⟨G, hG⟩ := Schema.frag_of_mem h.compiled hx
  have hG' := hG
  unfold SNode.frag at hG'
  simp only [hb, Except.ok.injEq, Schema.StorageN.frag] at hG'
  have hE : G.edges = [] := by subst hG'; rfl
  refine ⟨Schema.mem_nodes h.compiled hx hG (by subst hG'; simp), fun t => ?_⟩
  have hr := Schema.received_eq h hx hG (f t) (S := [(x.name, none)]) (by unfold SNode.inputs; simp only [hb]) (by simp) (by simp [hE])
  have hs := Schema.sent_eq h hx hG (f t) (S := [(x.name, none)]) (by unfold SNode.outputs; simp only [hb]) (by simp [hb]) (by simp [hb]) (by simp [hb])
    (by simp) (by simp [hE])
  simp only [List.map_cons, List.map_nil, List.sum_cons, List.sum_nil, add_zero] at hr hs
  simp only [Schema.coreFlow, hr, hs]

theorem storage_course {b : Schema.StorageN} (hb : x.body = .storage b) : ∃ vol : Nat → ℚ,
    (∀ t < n, stored F (st t) (x.name, none) = some (vol t)) ∧ StoreCourse D E F C n S f x b vol := by
  obtain ⟨hd, hflow⟩ := storage_core (f := f) h hx hb
  let vol : Nat → ℚ := fun t => match t with
    | 0 => (stored F (st 0) (x.name, none)).getD 0
    | t + 1 => (stored F (st t) (x.name, none)).getD 0 + (E.time t).days * (received D.net F (f t) x.name - sent D.net F (f t) x.name)
  have hvol : ∀ t < n, stored F (st t) (x.name, none) = some (vol t) := by
    intro t ht
    cases t with
    | zero =>
      obtain ⟨hi, v, -, -, h2⟩ := H.initial ht _ hd rfl
      simp only at h2
      simp only [vol, h2, Option.getD_some]
    | succ t =>
      obtain ⟨v, h1, h2⟩ := H.balance t ht _ hd rfl
      simp only at h1 h2
      rw [hflow] at h2
      simp only [vol, h1, h2, Option.getD_some]
  have hsucc : ∀ t < n, vol (t + 1) = vol t + (E.time t).days * (received D.net F (f t) x.name - sent D.net F (f t) x.name) := by
    intro t ht
    have := hvol t ht
    simp only [vol, this, Option.getD_some]
  refine ⟨vol, hvol, ?_, hsucc, ?_, ?_, ?_, ?_⟩
  · intro hn
    obtain ⟨hi, v, h1, hv, h2⟩ := H.initial hn _ hd rfl
    refine ⟨hi, valued H hn h1, ?_⟩
    have h3 := hvol 0 hn
    simp only at h2
    rw [h2, Option.some.injEq] at h3
    rw [← h3]
    cases hbi : b.initial <;> (simp only [hbi, Schema.Start.toInitial] at hv; exact hv)
  · intro t ht
    obtain ⟨v, h1, h2, h3⟩ := Schema.C65_storage h (H.allowed t ht) hx hb
    rw [hvol t ht, Option.some.injEq] at h1
    subst h1
    rw [H.days t ht, ← hsucc t ht] at h2 h3
    exact limits H ht ⟨h2, h3⟩
  · intro r hr t ht o q
    have hm : (D.refs r).metric D.net = .ok (.nodeVolume (x.name, none)) := by
      rcases hr with hr | hr <;>
      · rw [hr, target_node h hx]
        unfold SNode.metric
        simp only [hb, Option.getD_some, Option.getD_none, Schema.storageMetric]
    obtain ⟨v, h1, h2, h3⟩ := H.volumes t ht r _ hm _ hd rfl rfl
    rw [hvol t ht, Option.some.injEq] at h1
    subst h1
    rw [hflow] at h3
    exact ⟨h2 o q, by rw [hsucc t ht]; exact h3 o q⟩
  · intro r hr t ht
    have hm : (D.refs r).metric D.net = .ok (.nodeProportionalVolume (x.name, none)) := by
      rw [hr, target_node h hx]
      unfold SNode.metric
      simp only [hb, Option.getD_some, Schema.storageMetric]
    obtain ⟨v, now, before, h1, h2, h3, h4, h5⟩ := H.proportions t ht r _ hm _ hd rfl rfl
    rw [hvol t ht, Option.some.injEq] at h1
    subst h1
    rw [hflow] at h5
    exact ⟨now, before, valued H ht h2, valued H (by omega) h3, fun o q => ⟨h4 o q, by rw [hsucc t ht]; exact h5 o q⟩⟩
  · intro r hr t ht
    have hm : (D.refs r).metric D.net = .ok (.nodeMaxVolume (x.name, none)) := by
      rw [hr, target_node h hx]
      unfold SNode.metric
      simp only [hb, Option.getD_some, Schema.storageMetric]
    obtain ⟨now, h1, h2⟩ := H.maxima t ht r _ hm _ hd rfl rfl
    exact ⟨now, valued H ht h1, h2⟩

/-- **C99 (storages).** The volume of a storage starts as the document says and changes in every step by what it receives less what it
sends, and stays within the values of its bounds. A metric of its volume shows the volume at the end of a step, and before an
allocation that of the step before; a metric of its maximum volume shows the value of that bound. -/
theorem C99_storage {b : Schema.StorageN} (hb : x.body = .storage b) : ∃ vol, StoreCourse D E F C n S f x b vol := by
  obtain ⟨vol, -, hc⟩ := storage_course h H hx hb
  exact ⟨vol, hc⟩

/-- **C99 (bounds of volumes).** In a run that completes, the bounds of the volume of a storage are no metrics of the network: not
flows, volumes, deficits or transfers, and not parameters whose values wait for them. -/
theorem C99_bounds {b : Schema.StorageN} (hb : x.body = .storage b) {id : Nat} (hm : b.minVolume = some (.dyn id) ∨ b.maxVolume = some (.dyn id))
    {o : Option String} {m : Load.SMetric} (hu : D.doc.uses[id]? = some (o, m)) :
    (∀ r, m ≠ .component r) ∧
    ∀ p, (m = .param p → S.settled none p.name) ∧ (m = .localParam p → S.settled o p.name) := by
  obtain ⟨G, hG⟩ := Schema.frag_of_mem h.compiled hx
  have hG' := hG
  unfold SNode.frag at hG'
  simp only [hb, Except.ok.injEq, Schema.StorageN.frag] at hG'
  have hd : (⟨(x.name, none), .storage, Schema.volumeData b.cost b.minVolume b.maxVolume, some b.initial.toInitial⟩ : Decl) ∈ F.nodes :=
    Schema.mem_nodes h.compiled hx hG (by subst hG'; simp)
  have hk := H.bounds _ hd id (hm.imp_right .inl) o m hu
  refine ⟨fun r hr => by rw [hr] at hk; exact hk, fun p => ⟨fun hp => ?_, fun hp => ?_⟩⟩
  · rw [hp] at hk; exact hk.1
  · rw [hp] at hk; exact hk.1

/-- **C99 (capacities).** A storage whose maximum volume is a monthly profile of the document starts with its part of what the profile
says for the first date, and after every step holds no more than the profile says for the date of the step. -/
theorem C99_capacity {b : Schema.StorageN} (hb : x.body = .storage b) {id : Nat} (hm : b.maxVolume = some (.dyn id)) {o : Option String} {p : String}
    (hu : D.doc.uses[id]? = some (o, .param ⟨p, none, none⟩)) {values : Load.SList}
    (hp : (none, p, .monthly values none) ∈ D.doc.declared) {part : ℚ} (hi : b.initial = .proportional part)
    {r : String} (hr : D.refs r = .node x.name (some .volume)) :
    (0 < n → ∃ qs q, values.Is (D.args E F C) qs ∧ qs.length = 12 ∧ qs[(E.time 0).date.date.month - 1]? = some q ∧
      ∀ o, SNum (D.args E F C) S .early 0 o (.component r) (q * part)) ∧
    ∀ t < n, ∃ qs q, values.Is (D.args E F C) qs ∧ qs.length = 12 ∧ qs[(E.time t).date.date.month - 1]? = some q ∧
      ∀ o v, SNum (D.args E F C) S .late t o (.component r) v → v ≤ q := by
  obtain ⟨h5, -⟩ := H.params _ hp
  have hval : ∀ t < n, ∀ hi, Valued D (D.args E F C) S t b.maxVolume f64MAX hi →
      ∃ qs, values.Is (D.args E F C) qs ∧ qs.length = 12 ∧ qs[(E.time t).date.date.month - 1]? = some hi := by
    intro t ht hi h1
    rw [hm] at h1
    obtain ⟨o', m, h3, h4⟩ := h1
    rw [hu] at h3
    obtain ⟨rfl, rfl⟩ := Prod.mk.inj (Option.some.inj h3)
    simp only [SNum, Load.Reads, Option.getD_none] at h4
    obtain ⟨v, ⟨-, rfl⟩, rfl⟩ := h4
    obtain ⟨qs, q, h6, h9, h7, h8⟩ := h5 (by simp) t ht
    refine ⟨qs, h6, h9, ?_⟩
    rw [h8.1]; exact h7
  obtain ⟨vol, h1, -, h2, h3, -⟩ := C99_storage h H hx hb
  refine ⟨fun hn => ?_, fun t ht => ?_⟩
  · obtain ⟨q, h4, h6⟩ := h1 hn
    rw [hi] at h6
    obtain ⟨qs, g1, g2, g3⟩ := hval 0 hn q h4
    exact ⟨qs, q, g1, g2, g3, fun o => (h3 r (.inl hr) 0 hn o _).1.2 h6.symm⟩
  · obtain ⟨-, q, h4, h6⟩ := h2 t ht
    obtain ⟨qs, g1, g2, g3⟩ := hval t ht q h4
    exact ⟨qs, q, g1, g2, g3, fun o v hv => by rw [(h3 r (.inl hr) t ht o v).2.1 hv]; exact h6⟩

/-- **C99 (delays).** A delay node sends in every step what it received the given number of steps before, and the initial value until
then: `r` is its inflow, and `numbers` gives the number of the metric that refers to the delay parameter of the node. -/
theorem C99_delay {b : Schema.DelayN} (hb : x.body = .delay b) {r : String} (hr : D.refs r = .node x.name (some .inflow))
    (hp : (some x.name, "delay", .delay (.component r) b.delay b.initial) ∈ D.doc.declared)
    (hu : D.doc.uses[D.numbers x.name "delay" none]? = some (some x.name, .localParam ⟨"delay", none, none⟩)) (t : Nat) (ht : t < n) :
    (t < b.delay → sent D.net F (f t) x.name = b.initial) ∧
    (b.delay ≤ t → sent D.net F (f t) x.name = received D.net F (f (t - b.delay)) x.name) := by
  obtain ⟨out, v, -, h2, h3, h4⟩ := Schema.C65_routed h (H.allowed t ht) hx (by rw [hb]; rfl)
  rw [hb] at h3 h4
  simp only [Schema.Body.loss, Schema.LossIs] at h3
  rw [h3, add_zero] at h2
  obtain ⟨o, m, h5, h6⟩ := H.values t ht _ _ h4.1
  rw [hu] at h5
  obtain ⟨rfl, rfl⟩ := Prod.mk.inj (Option.some.inj h5)
  simp only [SNum, Load.Reads, Option.getD_none] at h6
  obtain ⟨-, w, ⟨-, h7⟩, h8⟩ := h6
  obtain ⟨y, hy, hval⟩ := H.params _ hp
  have hin : x.metric (some .inflow) = .ok (.nodeInFlow (x.name, some "inflow")) := by
    unfold SNode.metric
    simp only [hb, Option.getD_some]
  rw [← h2, h8, h7]
  refine ⟨fun hlt => ((hval t ht).1 hlt).1, fun hle => ?_⟩
  rw [((hval t ht).2 hle).1]
  exact (C99_inflow h H hx hr hin (t - b.delay) (by omega) _ _).1.1 (hy (t - b.delay) (by omega))

/-- **C99 (demands).** An output whose maximum flow is a monthly profile of the document never receives more than the profile says
for the date of the step. -/
theorem C99_demand {b : Schema.FlowN} (hb : x.body = .output b) {id : Nat} (hm : b.maxFlow = some (.dyn id)) {o : Option String} {p : String}
    (hu : D.doc.uses[id]? = some (o, .param ⟨p, none, none⟩)) {values : Load.SList}
    (hp : (none, p, .monthly values none) ∈ D.doc.declared) (t : Nat) (ht : t < n) :
    ∃ qs q, values.Is (D.args E F C) qs ∧ qs.length = 12 ∧ qs[(E.time t).date.date.month - 1]? = some q ∧ received D.net F (f t) x.name ≤ q := by
  obtain ⟨-, hi, h1, h2⟩ := C99_output h H hx hb t ht
  rw [hm] at h1
  obtain ⟨o', m, h3, h4⟩ := h1
  rw [hu] at h3
  obtain ⟨rfl, rfl⟩ := Prod.mk.inj (Option.some.inj h3)
  simp only [SNum, Load.Reads, Option.getD_none] at h4
  obtain ⟨v, ⟨-, rfl⟩, rfl⟩ := h4
  obtain ⟨h5, -⟩ := H.params _ hp
  obtain ⟨qs, q, h6, h9, h7, h8⟩ := h5 (by simp) t ht
  exact ⟨qs, q, h6, h9, h7, by rw [← h8.1]; exact h2⟩

end

end Verif.EndToEnd
