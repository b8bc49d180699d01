import Verif.Spec.Document
import Verif.Props.Load
import Verif.Props.Whole
import Verif.Lemmas.SchemaStores
import Verif.Lemmas.SchemaMerit

/-! # Runs of documents are simulations -/

namespace Verif.EndToEnd

open Verif.State Verif.Solver Verif.Time Verif.Simulation
open Verif.Coupled (World Steps step_iff pre_time bounds_congr maxFlows SeenBefore SeenAfter flowBefore)
open Verif.Load (Story Side SNum SHolds Told)
open Verif.Schema (Frag Core UMetric Decl)

variable {D : Document} {E : Setting} {F : Frag} {C : Core}

theorem zip_members (l : List (Nat × ℚ)) : (l.map (·.1)).zip (l.map (·.2)) = l := by
  induction l with
  | nil => rfl
  | cons a l ih => simp [ih]

/-- The solver sees the network built. -/
theorem sim_model (D : Document) (F : Frag) (C : Core) : (D.sim F C).model = C.model := by
  have : ((D.sim F C).vsNodes.mapIdx fun k n => (⟨n.nodesWithFactors, (D.sim F C).vsCost k⟩ : VStore)) = C.model.vs := by
    apply List.ext_getElem?
    intro k
    simp only [Document.sim, List.getElem?_mapIdx]
    cases hk : C.model.vs[k]? with
    | none => rfl
    | some v =>
      simp only [Option.map_some, Licence.node, VSNode.nodesWithFactors, zip_members, Option.bind_some]
  unfold Sim.model
  rw [this]
  rfl

theorem known_eq {ids : List Nat} {xs : List (Nat × ℚ)} {qs : List ℚ} (h : ∀ i q, (i, q) ∈ xs ↔ i ∈ ids ∧ qs[i]? = some q) {id : Nat}
    (hi : id ∈ ids) : known xs id = qs[id]? := by
  unfold known
  cases hx : xs.find? fun p => p.1 = id with
  | some p =>
    have h1 := List.mem_of_find?_eq_some hx
    have h2 := List.find?_some hx
    simp only [decide_eq_true_eq] at h2
    rw [← h2]
    exact ((h p.1 p.2).1 h1).2.symm
  | none =>
    cases hq : qs[id]? with
    | none => rfl
    | some q =>
      have := List.find?_eq_none.1 hx _ ((h id q).2 ⟨hi, hq⟩)
      simp at this

/-- What is known at the start of a step are the bounds of volumes. -/
theorem bounds_known (hb : F.build = .ok C) {xs : List (Nat × ℚ)} {qs : List ℚ}
    (h : ∀ i q, (i, q) ∈ xs ↔ i ∈ volumeIds F ∧ qs[i]? = some q) :
    (D.sim F C).bounds (known xs) = (D.sim F C).bounds fun id => qs[id]? := by
  apply bounds_congr
  · intro i id hid
    refine known_eq h ?_
    simp only [Document.sim] at hid
    cases hi : F.nodes[i]? with
    | none =>
      rw [(Schema.build_ok F C hb).2.1] at hid
      simp [hi, Schema.noData] at hid
    | some d =>
      rw [Schema.data_at hb hi] at hid
      refine List.mem_flatMap.2 ⟨d, List.mem_of_getElem? hi, List.mem_append_left _ (List.mem_append.2 ?_)⟩
      rcases hid with e | e
      · exact Or.inl (by simp [idsOf, e])
      · exact Or.inr (by simp [idsOf, e])
  · rintro k id (h | h)
    · simp [Document.sim] at h
    · simp [Document.sim] at h

theorem get_congr {σ σ' : Nat → Option ℚ} {m : Metric} (h : ∀ id ∈ idOf m, σ id = σ' id) : m.get σ = m.get σ' := by
  cases m with
  | const v => rfl
  | dyn id => exact h id (by simp [idOf])

theorem volumeOf_congr {σ σ' : Nat → Option ℚ} {i : Option Schema.Initial} (h : ∀ id ∈ initialIds i, σ id = σ' id) : volumeOf σ i = volumeOf σ' i := by
  unfold volumeOf
  congr 1
  match i with
  | none => rfl
  | some (.absolute _) => rfl
  | some (.proportional _) => rfl
  | some (.distributedAbsolute a prior) =>
    simp only [Option.bind_some, Schema.Initial.read]
    rw [get_congr fun id hid => h id hid]
  | some (.distributedProportional total p prior) =>
    simp only [Option.bind_some, Schema.Initial.read]
    rw [get_congr fun id hid => h id (List.mem_append_right _ hid), get_congr fun id hid => h id (List.mem_append_left _ hid)]

/-- And what initial volumes depend on. -/
theorem starts_known {xs : List (Nat × ℚ)} {qs : List ℚ} (h : ∀ i q, (i, q) ∈ xs ↔ i ∈ volumeIds F ∧ qs[i]? = some q) :
    (D.sim F C).iv (known xs) = (D.sim F C).iv fun id => qs[id]? := by
  funext i
  simp only [Document.sim]
  cases hi : F.nodes[i]? with
  | none => rfl
  | some d =>
    refine volumeOf_congr fun id hid => known_eq h ?_
    exact List.mem_flatMap.2 ⟨d, List.mem_of_getElem? hi, List.mem_append_right _ hid⟩

/-- `before` of nodes and the allocation together are a step of the simulation. -/
theorem start_allocate {S : Sim} {t : Nat} {w w1 w2 : Area} {xs : List (Nat × ℚ)} {qs : List ℚ}
    (hb : S.bounds (known xs) = S.bounds fun id => qs[id]?) (hv : S.iv (known xs) = S.iv fun id => qs[id]?) (h1 : start S E t w xs = some w1) (h2 : allocate S E t w1 qs = some w2) :
    ∃ r, S.step ⟨E.time t, fun id => qs[id]?, E.solver t⟩ w.world.state = .ok (w2.world.state, r) ∧
      w1 = ⟨⟨S, ⟨r.pre, w.world.state.solver⟩, r.bounds, fun _ => none⟩, E.given t⟩ ∧
      w2 = ⟨⟨S, ⟨r.post, w2.world.state.solver⟩, r.bounds, maxFlows S fun id => qs[id]?⟩, E.given t⟩ := by
  unfold start at h1
  rw [hb] at h1
  split at h1
  · cases h1
  · rename_i b hb'
    simp only [Option.some.injEq] at h1
    have hpre : S.pre ⟨E.time t, known xs, E.solver t⟩ b w.world.state.network =
        S.pre ⟨E.time t, fun id => qs[id]?, E.solver t⟩ b w.world.state.network :=
      pre_time (inp := ⟨E.time t, known xs, E.solver t⟩) (inp' := ⟨E.time t, fun id => qs[id]?, E.solver t⟩) rfl hv _ _
    rw [hpre] at h1
    subst h1
    unfold allocate at h2
    simp only at h2
    split at h2
    · cases h2
    · rename_i so hso
      split at h2
      · cases h2
      · rename_i x hx
        split at h2
        · cases h2
        · rename_i n hn
          simp only [Option.some.injEq] at h2
          subst h2
          exact ⟨_, step_iff.2 ⟨b, x, hb', hso, hx, hn, rfl⟩, rfl, rfl⟩

/-- What each step starts from. -/
def oldAt (s : NetworkState) (record : Nat → Record) : Nat → NetworkState
  | 0 => s
  | t + 1 => (record t).post

theorem carries_at {S : Sim} (n : Nat) : ∀ (s : NetworkState) (input : Nat → Inp) (record : Nat → Record),
    S.RunOk s ((List.range n).map input) ((List.range n).map record) →
    ∀ t < n, S.Carries (input t) (oldAt s record t) (record t).pre := by
  induction n with
  | zero => intro _ _ _ _ t ht; omega
  | succ n ih =>
    intro s input record hr t ht
    simp only [List.range_succ_eq_map, List.map_cons, List.map_map, Sim.RunOk] at hr
    obtain ⟨-, h2, -, h4⟩ := hr
    cases t with
    | zero => exact h2
    | succ t =>
      have := ih _ (fun t => input (t + 1)) (fun t => record (t + 1)) h4 t (by omega)
      cases t <;> exact this

theorem Fit.sim {n : Nat} (hf : Fit D E F C n) (hb : F.build = .ok C) : (D.sim F C).Valid := by
  have hv := Schema.model_valid hb
  have hat : ∀ nd ∈ (D.sim F C).vsNodes, ∃ k v, C.model.vs[k]? = some v ∧ nd = (D.licences k).node v := by
    intro nd hn
    obtain ⟨k, hk⟩ := List.getElem?_of_mem hn
    simp only [Document.sim, List.getElem?_mapIdx, Option.map_eq_some_iff] at hk
    obtain ⟨v, hv, rfl⟩ := hk
    exact ⟨k, v, hv, rfl⟩
  refine ⟨?_, ?_, ?_, ?_, ?_, ?_⟩
  · rw [sim_model]; exact hv
  · rw [sim_model]; exact (noExclusivity_ok hf.single).1
  · rw [sim_model]; exact (noExclusivity_ok hf.single).2
  · rw [sim_model]; exact hf.factors
  · intro nd hn i hi
    obtain ⟨k, v, hk, rfl⟩ := hat nd hn
    obtain ⟨p, hp, rfl⟩ := List.mem_map.1 hi
    exact hf.members v (List.mem_of_getElem? hk) p hp
  · intro nd hn w hw
    obtain ⟨k, v, hk, rfl⟩ := hat nd hn
    obtain ⟨h1, h2⟩ := hf.windows k v hk w hw
    refine ⟨h1, ?_⟩
    intro c hc
    obtain ⟨p, hp, rfl⟩ := List.mem_map.1 hc
    exact h2 p hp

/-- The simulation of a run of a document. -/
structure Simulated (D : Document) (E : Setting) (F : Frag) (C : Core) (n : Nat) (S : Story Area) (input : Nat → Inp)
    (record : Nat → Record) (st : Nat → SimState) : Prop where
  built : F.build = .ok C
  steps : Steps (D.sim F C) n input record st
  initial : (D.sim F C).initial E.big E.negBig = .ok (st 0)
  time : ∀ t < n, (input t).t = E.time t
  solver : ∀ t < n, (input t).solve = E.solver t
  values : ∀ t < n, ∀ id q, (input t).metric id = some q → Means D (D.args E F C) S t (.dyn id) q
  present : ∀ t < n, ∀ id < D.doc.uses.length, ∃ q, (input t).metric id = some q
  early : ∀ t < n, ∃ so, S.early t = ⟨⟨D.sim F C, ⟨(record t).pre, so⟩, (record t).bounds, fun _ => none⟩, E.given t⟩
  late : ∀ t < n, ∃ so, S.late t = ⟨⟨D.sim F C, ⟨(record t).post, so⟩, (record t).bounds, maxFlows (D.sim F C) (input t).metric⟩, E.given t⟩

theorem simulated (hbuilt : F.build = .ok C)
    {s : SimState} (h0 : (D.sim F C).initial E.big E.negBig = .ok s) {n : Nat} {S : Story Area}
    (h : Told (D.args E F C) D.doc (volumeIds F) (start (D.sim F C) E) (allocate (D.sim F C) E) (blank (D.sim F C) E s) n S) :
    ∃ input record st, Simulated D E F C n S input record st := by
  let old : Nat → Area := S.old (blank (D.sim F C) E s)
  have key : ∀ t, ∃ qs r, t < n → List.Forall₂ (fun u q => SNum (D.args E F C) S .early t u.1 u.2 q) D.doc.uses qs ∧
      (D.sim F C).step ⟨E.time t, fun id => qs[id]?, E.solver t⟩ (old t).world.state = .ok ((S.late t).world.state, r) ∧
      S.early t = ⟨⟨D.sim F C, ⟨r.pre, (old t).world.state.solver⟩, r.bounds, fun _ => none⟩, E.given t⟩ ∧
      S.late t = ⟨⟨D.sim F C, ⟨r.post, (S.late t).world.state.solver⟩, r.bounds, maxFlows (D.sim F C) fun id => qs[id]?⟩, E.given t⟩ := by
    intro t
    by_cases ht : t < n
    · obtain ⟨qs, h1, ⟨xs, hx, h4⟩, h2⟩ := h.steps t ht
      obtain ⟨r, h3⟩ := start_allocate (bounds_known hbuilt hx) (starts_known hx) h4 h2
      exact ⟨qs, r, fun _ => ⟨h1, h3⟩⟩
    · exact ⟨[], ⟨⟨E.time 0, fun _ => none, fun _ => none⟩, ⟨fun _ => (0, 0), fun _ => (0, 0)⟩, s.network, fun _ => 0, s.network⟩,
        fun h => absurd h ht⟩
  choose qs r hqr using key
  refine ⟨fun t => ⟨E.time t, fun id => (qs t)[id]?, E.solver t⟩, r, fun t => (old t).world.state,
    hbuilt, ⟨Coupled.initial_network h0, fun t ht => (hqr t ht).2.1⟩, h0, fun _ _ => rfl, fun _ _ => rfl, ?_, ?_, ?_, ?_⟩
  · intro t ht id q hq
    have h1 := (hqr t ht).1
    rw [List.forall₂_iff_get] at h1
    obtain ⟨hl, h2⟩ := h1
    obtain ⟨hlt, hg⟩ := List.getElem?_eq_some_iff.1 hq
    have hlt' : id < D.doc.uses.length := by rw [hl]; exact hlt
    refine ⟨_, _, List.getElem?_eq_getElem hlt', ?_⟩
    have := h2 id hlt' hlt
    simp only [List.get_eq_getElem] at this
    rw [hg] at this
    exact this
  · intro t ht id hid
    have hl := (hqr t ht).1.length_eq
    exact ⟨_, List.getElem?_eq_getElem (show id < (qs t).length by omega)⟩
  · intro t ht
    exact ⟨_, (hqr t ht).2.2.1⟩
  · intro t ht
    exact ⟨_, (hqr t ht).2.2.2⟩

section
variable {n : Nat} {S : Story Area} {input : Nat → Inp} {record : Nat → Record} {st : Nat → SimState}

theorem licence_at {k : Nat} {v : VSNode} (h : (D.sim F C).vsNodes[k]? = some v) : k < C.model.vs.length ∧
    v.initialVolume = (D.licences k).initialVolume ∧ v.resetVolume = (D.licences k).resetVolume ∧
    v.rollingWindow = (D.licences k).rollingWindow := by
  simp only [Document.sim, List.getElem?_mapIdx, Option.map_eq_some_iff] at h
  obtain ⟨a, h1, rfl⟩ := h
  exact ⟨(List.getElem?_eq_some_iff.1 h1).1, rfl, rfl, rfl⟩

theorem licence_bounds {σ : Nat → Option ℚ} {k : Nat} {lo hi : ℚ}
    (h : VolumesAre σ ((D.sim F C).vsMin k) ((D.sim F C).vsMax k) lo hi) : lo = (D.licences k).lo ∧ hi = (D.licences k).hi := by
  obtain ⟨h1, h2⟩ := h
  simp only [Document.sim, ValueIs, Metric.get, Option.some.injEq] at h1 h2
  exact ⟨h1.symm, h2.symm⟩

theorem Simulated.inputs (h : Simulated D E F C n S input record st) (hf : Fit D E F C n) :
    (D.sim F C).InputsOk ((List.range n).map input) := by
  have hm : ∀ inp ∈ (List.range n).map input, ∃ t < n, inp = input t := by
    intro inp hi
    obtain ⟨t, ht, rfl⟩ := List.mem_map.1 hi
    exact ⟨t, List.mem_range.1 ht, rfl⟩
  have pw : ∀ R : Inp → Inp → Prop, (∀ s t, s < t → t < n → R (input s) (input t)) → ((List.range n).map input).Pairwise R := by
    intro R hR
    rw [List.pairwise_map]
    refine List.Pairwise.imp_of_mem (fun {a b} _ hb hab => hR a b hab (List.mem_range.1 hb)) List.pairwise_lt_range
  refine ⟨?_, ?_, ?_, ?_, ?_, ?_, ?_⟩
  · rw [List.map_map, List.length_map, List.length_range]
    refine (List.map_congr_left fun t ht => ?_).trans (List.map_id _)
    have ht := List.mem_range.1 ht
    simp only [Function.comp, h.time t ht, hf.index t ht, id]
  · intro inp hi
    obtain ⟨t, ht, rfl⟩ := hm inp hi
    rw [h.time t ht]; exact hf.days t ht
  · intro inp hi
    obtain ⟨t, ht, rfl⟩ := hm inp hi
    rw [h.solver t ht]; exact hf.sound t ht
  · intro inp hi k v lo hi' hv hb
    obtain ⟨h1, h2, -, -⟩ := licence_at hv
    obtain ⟨rfl, rfl⟩ := licence_bounds hb
    rw [h2]; exact hf.licences k h1
  · refine pw _ fun s t _ _ k hk lo hi lo' hi' h1 h2 => ?_
    obtain ⟨rfl, rfl⟩ := licence_bounds h1
    obtain ⟨rfl, rfl⟩ := licence_bounds h2
    exact ⟨le_refl _, le_refl _⟩
  · intro inp hi k v lo hi' hv hr hb
    obtain ⟨t, ht, rfl⟩ := hm inp hi
    obtain ⟨h1, h2, h3, h4⟩ := licence_at hv
    obtain ⟨rfl, rfl⟩ := licence_bounds hb
    rw [h2, h3]
    rcases hf.rolling k h1 (h4 ▸ hr) with h5 | ⟨h5, h6⟩
    · exact Or.inl h5
    · exact Or.inr ⟨h5, by rw [h.time t ht]; exact h6 t ht⟩
  · rintro ⟨v, hv, hr⟩
    obtain ⟨k, hk⟩ := List.getElem?_of_mem hv
    obtain ⟨h1, -, -, h4⟩ := licence_at hk
    refine pw _ fun s t hst ht => ?_
    rw [h.time t ht, h.time s (by omega)]
    exact hf.shorter k h1 (h4 ▸ hr) s t hst ht

theorem Simulated.runOk (h : Simulated D E F C n S input record st) (hf : Fit D E F C n) :
    (D.sim F C).RunOk (D.sim F C).initialNetwork ((List.range n).map input) ((List.range n).map record) := by
  have hrun := Coupled.run_of_steps n input st record h.steps.step
  have hok := (C60_run (hf.sim h.built) _ (h.inputs hf) E.big E.negBig _ h.initial).1
  rw [hrun, h.steps.start] at hok
  exact hok

/-- The state of a step as the solver sees it. -/
def stateAt (D : Document) (F : Frag) (C : Core) (input : Nat → Inp) (record : Nat → Record) (t : Nat) : StepState :=
  (D.sim F C).stepState (input t) (record t).bounds (record t).pre

theorem Simulated.shows (h : Simulated D E F C n S input record st) (hf : Fit D E F C n) {t : Nat} (ht : t < n) :
    (D.sim F C).Shows (input t) (record t).pre (stateAt D F C input record t) := by
  have hok := Coupled.runOk_at n _ _ _ (h.runOk hf) t ht
  obtain ⟨b, x, hb, -, -, -, a5⟩ := step_iff.1 (h.steps.step t ht)
  have hb' : (D.sim F C).bounds (input t).metric = some (record t).bounds := by rw [a5]; exact hb
  obtain ⟨-, b2⟩ := bounds_some hb'
  refine ⟨rfl, rfl, ?_, ?_, ?_⟩
  · intro nd hn hk
    obtain ⟨-, -, v, -, hv, -⟩ := hok.storage nd hn hk
    exact ⟨v, hv, by simp [stateAt, Sim.stepState, hv, Except.toOption]⟩
  · intro k v hv
    simp [stateAt, Sim.stepState, hv]
  · intro k hk
    obtain ⟨-, -, v, -, hv, -⟩ := hok.vs k _ (List.getElem?_eq_getElem hk)
    exact ⟨_, _, v, b2 k hk, hv, by simp [stateAt, Sim.stepState, hv, Except.toOption, availableBounds]⟩

theorem Simulated.allowed (h : Simulated D E F C n S input record st) (hf : Fit D E F C n) {t : Nat} (ht : t < n) :
    Allowed C.model (stateAt D F C input record t) (record t).flow := by
  have hok := Coupled.runOk_at n _ _ _ (h.runOk hf) t ht
  have := (allowed_iff (hf.sim h.built) (h.shows hf ht) _).2 hok.allowed
  rw [sim_model] at this
  exact (C86_plain _ hf.single _ _).1 this

theorem Simulated.least (h : Simulated D E F C n S input record st) (hf : Fit D E F C n) (hbig : 1000000 ≤ E.big)
    (ho : ∀ t < n, ∀ (lp : Lp) (x : Nat → ℚ), E.solver t lp = some x → ∀ y, lp.Feasible y → lp.objective x ≤ lp.objective y)
    {t : Nat} (ht : t < n) (cost : Topology.TNode → ℚ)
    (hc : ∀ nd ∈ C.model.net.nodes, nd.incoming ≠ [] ∨ nd.outgoing ≠ [] →
      CostIs C.model (stateAt D F C input record t).metric nd (cost nd))
    (g : Nat → ℚ) (h1 : Allowed C.model (stateAt D F C input record t) g)
    (h2 : WithinLimits C.model E.big E.negBig (stateAt D F C input record t) g) :
    totalCost C.model cost (record t).flow ≤ totalCost C.model cost g := by
  have hrun := Coupled.run_of_steps n input st record h.steps.step
  have hopt : Optimal ((List.range n).map input) := by
    intro inp hi
    obtain ⟨s, hs, rfl⟩ := List.mem_map.1 hi
    rw [h.solver s (List.mem_range.1 hs)]
    exact ho s (List.mem_range.1 hs)
  have hinp : (record t).inp = input t := by
    obtain ⟨b, x, -, -, -, -, a5⟩ := step_iff.1 (h.steps.step t ht)
    rw [a5]
  have hsh := h.shows hf ht
  have := C60_least_cost (hf.sim h.built) _ (h.inputs hf) hopt E.big E.negBig hbig _ h.initial (record t) (by
    rw [hrun]; exact List.mem_map_of_mem (List.mem_range.2 ht)) cost (by
      rw [hinp]
      intro nd hn hne
      rw [← costIs_iff, sim_model]
      exact hc nd hn hne)
  rw [hinp] at this
  refine this.2 g ?_ ?_
  · rw [← allowed_iff (hf.sim h.built) hsh, sim_model]
    exact (C86_plain _ hf.single _ _).2 h1
  · rw [← within_iff hsh, sim_model]
    exact h2

end

end Verif.EndToEnd
