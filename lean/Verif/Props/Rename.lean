import Verif.Lemmas.RenamePlace
import Verif.Lemmas.Visit
import Mathlib.Tactic.Linarith

/-!
# C101: renaming nodes changes nothing but names
-/

namespace Verif.Rename

open Verif.Schema (Net ParamNo Frag Core)
open Verif.EndToEnd

variable {ρ : String → String}

/-- A network whose nodes and references are renamed is accepted if and only if the network was, and what is handed to the
core is that of before under the new names. -/
theorem C101_compiles (hρ : Function.Injective ρ) {P P' : ParamNo} (hP : SameNumbers ρ P P') (N : Net) :
    ((net ρ N).compile P').toOption = (N.compile P).toOption.map (frag ρ) := compile_rename hρ hP N

/-- The network built from it is that of before but for the names of its nodes: the same positions, edges, constraints,
aggregated nodes and licences. -/
theorem C101_built (hρ : Function.Injective ρ) (F : Frag) : (frag ρ F).build.toOption = F.build.toOption.map (core ρ) :=
  build_rename hρ F

/-- Its runs are those of before: the same linear programs, flows, volumes and errors in every step, whatever values its
metrics have and whatever the solver answers. -/
theorem C101_runs (hρ : Function.Injective ρ) {P P' : ParamNo} (hP : SameNumbers ρ P P') (N : Net) (licences : Nat → Licence)
    (big negBig : ℚ) (inps : List Simulation.Inp) :
    simulate P' (net ρ N) licences big negBig inps = simulate P N licences big negBig inps := by
  have hc := C101_compiles hρ hP N
  simp only [simulate]
  cases h1 : N.compile P <;> cases h2 : (net ρ N).compile P' <;>
    simp only [h1, h2, Except.toOption, Option.map_none, Option.map_some, reduceCtorEq, Option.some.injEq] at hc ⊢
  subst hc
  rename_i F
  have hb := C101_built hρ F
  cases h3 : F.build <;> cases h4 : (frag ρ F).build <;>
    simp only [h3, h4, Except.toOption, Option.map_none, Option.map_some, reduceCtorEq, Option.some.injEq] at hb ⊢
  subst hb
  rename_i C
  have hs : ∀ D D' : Document, D'.licences = D.licences → D'.sim (frag ρ F) (core ρ C) = sim ρ (D.sim F C) := by
    intro D D' h
    have hi : (fun (σ : Nat → Option ℚ) (i : Nat) => volumeOf σ (((frag ρ F).nodes[i]?).bind (·.initial))) =
        fun (σ : Nat → Option ℚ) (i : Nat) => volumeOf σ ((F.nodes[i]?).bind (·.initial)) := by
      funext σ i
      simp only [frag, List.getElem?_map]
      cases F.nodes[i]? <;> rfl
    simp only [Document.sim, sim, core, h, hi]
  have h5 := hs ⟨N, ⟨[], [], [], [], []⟩, fun _ => .transfer "", P, licences⟩
    ⟨net ρ N, ⟨[], [], [], [], []⟩, fun _ => .transfer "", P', licences⟩ rfl
  rw [h5, initial_rename]
  cases (Document.sim ⟨N, ⟨[], [], [], [], []⟩, fun _ => .transfer "", P, licences⟩ F C).initial big negBig with
  | error e => rfl
  | ok s => exact congrArg some (run_rename _ inps s)

/-- What a metric of a node, virtual node or edge names after renaming is what it named before: the same positions of the
network, and none if there were none. -/
theorem C101_metrics (hρ : Function.Injective ρ) (N : Net) (F : Frag) (C : Core) (t : Target) :
    (∀ u, t ≠ .made u) →
    ((Visit.mapTarget ρ t).metric (net ρ N)).toOption.bind (place (frag ρ F) (core ρ C)) =
      (t.metric N).toOption.bind (place F C) := by
  intro ht
  have h := target_metric_rename hρ N t
  have e : target ρ t = Visit.mapTarget ρ t := by
    cases t with
    | made u => exact absurd rfl (ht u)
    | _ => rfl
  rw [e] at h
  rw [h]
  cases (t.metric N).toOption with
  | none => rfl
  | some u => exact place_rename hρ F C u

/-- The same for virtual nodes. -/
theorem C101_virtual_metrics (hρ : Function.Injective ρ) (N : Net) (F : Frag) (C : Core) (x : String) (a : Option Schema.Attr) :
    (((net ρ N).virtualNodes.find? (fun v => v.name = ρ x)).bind fun v => (virtualMetric v a).toOption.bind (·.place (frag ρ F) (core ρ C))) =
      (N.virtualNodes.find? (fun v => v.name = x)).bind fun v => (virtualMetric v a).toOption.bind (·.place F C) := by
  rw [virtual_find_rename hρ]
  cases N.virtualNodes.find? (fun v => v.name = x) with
  | none => rfl
  | some v =>
    simp only [Option.map_some, Option.bind_some, virtualMetric_rename]
    cases (virtualMetric v a).toOption with
    | none => rfl
    | some u => exact vplace_rename hρ F C u

/-! ## Renaming one node -/

theorem net_congr {f g : String → String} (N : Net) (h : ∀ x ∈ namesOf N, f x = g x) : net f N = net g N := by
  simp only [namesOf, List.mem_append, List.mem_map] at h
  have hn : N.nodes.map (snode f) = N.nodes.map (snode g) := List.map_congr_left fun n hn => by
    simp only [snode, h n.name (.inl (.inl ⟨n, hn, rfl⟩))]
  have hr : ∀ x ∈ Visit.netReferences N, f x = g x := fun x hx => h x (.inr hx)
  simp only [Visit.netReferences, List.mem_append, List.mem_flatMap] at hr
  have he : N.edges.map (Visit.mapEdge f) = N.edges.map (Visit.mapEdge g) := List.map_congr_left fun e he => by
    simp only [Visit.mapEdge, hr e.src (.inl ⟨e, he, by simp⟩), hr e.dst (.inl ⟨e, he, by simp⟩)]
  have hv : N.virtualNodes.map (vnode f) = N.virtualNodes.map (vnode g) := List.map_congr_left fun v hv => by
    have hx : f v.name = g v.name := h v.name (.inl (.inr ⟨v, hv, rfl⟩))
    have hm : ∀ x ∈ Visit.virtualReferences v, f x = g x := fun x hx => hr x (.inr ⟨v, hv, hx⟩)
    obtain ⟨x, body, ps⟩ := v
    have hl : ∀ refs : List Schema.Ref, (∀ x ∈ refs.map (·.name), f x = g x) →
        (refs.map fun r => { r with name := f r.name } : List Schema.Ref) = refs.map fun r => { r with name := g r.name } :=
      fun refs hh => List.map_congr_left fun r hr => by rw [hh r.name (List.mem_map_of_mem hr)]
    cases body with
    | aggregated refs hi lo rel => simp only [vnode, Visit.mapVirtual, hx, hl refs hm]
    | aggregatedStorage refs =>
      have : refs.map f = refs.map g := List.map_congr_left hm
      simp only [vnode, Visit.mapVirtual, hx, this]
    | virtualStorage refs factors cost => simp only [vnode, Visit.mapVirtual, hx, hl refs hm]
    | placeholder => simp only [vnode, Visit.mapVirtual, hx]
  rw [net_eq, net_eq, hn, he, hv]

/-- Two names change places. -/
def swap (a b x : String) : String := if x = a then b else if x = b then a else x

theorem swap_inj (a b : String) : Function.Injective (swap a b) := by
  intro x y h
  unfold swap at h
  grind

/-- Renaming one node to a name that does not occur, with the references to it, leaves the runs of a network as they are. -/
theorem C101_one (a b : String) {P P' : ParamNo} (N : Net) (hb : b ∉ namesOf N) (hP : SameNumbers (swap a b) P P')
    (licences : Nat → Licence) (big negBig : ℚ) (inps : List Simulation.Inp) :
    simulate P' (net (one a b) N) licences big negBig inps = simulate P N licences big negBig inps := by
  have h : net (one a b) N = net (swap a b) N := net_congr N fun x hx => by
    have hxb : x ≠ b := fun h => hb (h ▸ hx)
    simp only [one, swap, hxb, if_false]
  rw [h]
  exact C101_runs (swap_inj a b) hP N licences big negBig inps

/-! ## Visitors -/

/-- The visitor of node references visits the names of nodes in a network wherever they are, and nothing else. -/
theorem C101_references (S : Visit.Schema) (x : String) : x ∈ S.references ↔ S.Refers x := by
  simp only [Visit.Schema.references, Visit.Schema.Refers, List.mem_append, Visit.referencesAll_iff, List.mem_flatMap,
    Visit.met_references, List.mem_cons, List.not_mem_nil, or_false]
  constructor
  · rintro ((((⟨i, hi, h⟩ | ⟨e, he, h⟩) | ⟨i, hi, h⟩) | ⟨i, hi, h⟩) | ⟨ms, hm, m, hmm, h⟩)
    · exact .inl ⟨i, .inl (.inl hi), h⟩
    · exact .inr (.inl ⟨e, he, h.imp Eq.symm Eq.symm⟩)
    · exact .inl ⟨i, .inl (.inr hi), h⟩
    · exact .inl ⟨i, .inr hi, h⟩
    · exact .inr (.inr ⟨ms, hm, m, hmm, h⟩)
  · rintro (⟨i, (hi | hi) | hi, h⟩ | ⟨e, he, h⟩ | ⟨ms, hm, m, hmm, h⟩)
    · exact .inl (.inl (.inl (.inl ⟨i, hi, h⟩)))
    · exact .inl (.inl (.inr ⟨i, hi, h⟩))
    · exact .inl (.inr ⟨i, hi, h⟩)
    · exact .inl (.inl (.inl (.inr ⟨e, he, h.imp Eq.symm Eq.symm⟩)))
    · exact .inr ⟨ms, hm, m, hmm, h⟩

/-- Changing references changes what is visited by the function given, in the same order. -/
theorem C101_renamed_references (f : String → String) (i : Visit.Item) : (i.mapReferences f).references = i.references.map f :=
  Visit.map_references f i

/-- Values without a reference that is changed are left as they are. -/
theorem C101_untouched (f : String → String) (i : Visit.Item) (h : ∀ x, Visit.Refers i x → f x = x) : i.mapReferences f = i :=
  Visit.map_keep f i fun x hx => h x ((Visit.references_iff i x).1 hx)

/-- In values without arrays of metrics the visitor of metrics visits every metric, and nothing else. -/
theorem C101_visited_metrics_partial (i : Visit.Item) (hp : Visit.Plain i) (m : Visit.Met) : m ∈ i.metrics ↔ Visit.Holds i m :=
  ⟨Visit.metrics_holds i m, fun h => Visit.holds_metrics h hp⟩

/-- Not so in arrays, such as the values a threshold parameter returns (`thresholds.rs:100`): a change of metrics does not
reach them, and the references of a parameter that became a series in the conversion of an old model (`network.rs:412-423`) stay
references to a parameter that is not there. -/
theorem C101_visited_metrics_refuted :
    ∃ i m, Visit.Holds i m ∧ m ∉ i.metrics ∧ ∃ f, f m ≠ m ∧ Visit.Item.mapMetrics f i = i := by
  refine ⟨.list [.metric (.other "inflow"), .array [.other "a", .node "b" none]], .node "b" none,
    .list (List.mem_cons_of_mem _ List.mem_cons_self) (.array (by simp)), by simp [Visit.Item.metrics, Visit.Item.metricsAll],
    fun m => match m with | .node _ _ => .other "c" | m => m, by simp, rfl⟩

/-- The visitor of paths visits the files of nodes, parameters, series and outputs, and nothing else. -/
theorem C101_visited_paths_partial (S : Visit.Schema) (p : String) :
    p ∈ S.paths ↔ ∃ i ∈ S.nodes ++ S.parameters ++ S.timeseries ++ S.outputs, Visit.Written i p := by
  simp only [Visit.Schema.paths, List.mem_append, Visit.pathsAll_iff]
  constructor
  · rintro (((⟨i, hi, h⟩ | ⟨i, hi, h⟩) | ⟨i, hi, h⟩) | ⟨i, hi, h⟩)
    · exact ⟨i, .inl (.inl (.inl hi)), h⟩
    · exact ⟨i, .inl (.inl (.inr hi)), h⟩
    · exact ⟨i, .inl (.inr hi), h⟩
    · exact ⟨i, .inr hi, h⟩
  · rintro ⟨i, ((hi | hi) | hi) | hi, h⟩
    · exact .inl (.inl (.inl ⟨i, hi, h⟩))
    · exact .inl (.inl (.inr ⟨i, hi, h⟩))
    · exact .inl (.inr ⟨i, hi, h⟩)
    · exact .inr ⟨i, hi, h⟩

/-- Not those of tables: the visitor does not find all files that a network needs. -/
theorem C101_visited_paths_refuted : ∃ S : Visit.Schema, ∃ p, S.Needs p ∧ p ∉ S.paths := by
  refine ⟨⟨[], [], [], [], [.list [.plain "demand", .path "demand.csv"]], [], [], []⟩, "demand.csv",
    ⟨.list [.plain "demand", .path "demand.csv"], by simp, .list (List.mem_cons_of_mem _ List.mem_cons_self) (.path _)⟩, by simp [Visit.Schema.paths, Visit.Item.pathsAll]⟩

end Verif.Rename
