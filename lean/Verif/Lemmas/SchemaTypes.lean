import Verif.Lemmas.SchemaFlow

/-! # Flows of the node types -/

namespace Verif.Schema

open Verif.State (NodeKind)
open Verif.Topology (Name EdgeDecl TNode)
open Verif.Solver (Metric NodeData Relationship)

/-! ## Reported values -/

theorem sumAll_some {α : Type} (l : List α) (g : α → Option ℚ) (v : α → ℚ) (h : ∀ a ∈ l, g a = some (v a)) :
    sumAll (l.map g) = some (l.map v).sum := by
  induction l with
  | nil => rfl
  | cons a l ih =>
    simp only [List.map_cons, h a (by simp), sumAll, ih (fun b hb => h b (by simp [hb])), Option.map_some, List.sum_cons]

section
variable {P : ParamNo} {N : Net} {F : Frag} {C : Core} (h : Built P N F C)
include h

theorem reports_in {m : Except Err UMetric} {S : List Name} (hm : m = .ok (.multiNodeInFlow S)) (f : Nat → ℚ)
    (hS : ∀ c ∈ S, ∃ d ∈ F.nodes, d.name = c) : Reports F C f m ((S.map (into F f)).sum) := by
  refine ⟨_, hm, ?_⟩
  exact sumAll_some _ _ _ (fun c hc => by obtain ⟨d, hd, rfl⟩ := hS c hc; exact (find_net h.built hd f).1)

theorem reports_out {m : Except Err UMetric} {S : List Name} (hm : m = .ok (.multiNodeOutFlow S)) (f : Nat → ℚ)
    (hS : ∀ c ∈ S, ∃ d ∈ F.nodes, d.name = c) : Reports F C f m ((S.map (outOf F f)).sum) := by
  refine ⟨_, hm, ?_⟩
  exact sumAll_some _ _ _ (fun c hc => by obtain ⟨d, hd, rfl⟩ := hS c hc; exact (find_net h.built hd f).2)

theorem reports_in1 {m : Except Err UMetric} {c : Name} (hm : m = .ok (.nodeInFlow c)) (f : Nat → ℚ)
    (hS : ∃ d ∈ F.nodes, d.name = c) : Reports F C f m (into F f c) := by
  obtain ⟨d, hd, rfl⟩ := hS
  exact ⟨_, hm, (find_net h.built hd f).1⟩

theorem reports_out1 {m : Except Err UMetric} {c : Name} (hm : m = .ok (.nodeOutFlow c)) (f : Nat → ℚ)
    (hS : ∃ d ∈ F.nodes, d.name = c) : Reports F C f m (outOf F f c) := by
  obtain ⟨d, hd, rfl⟩ := hS
  exact ⟨_, hm, (find_net h.built hd f).2⟩

/-! ## Nodes made of parallel links -/

/-- All connectors are among `S`, all of `S` are links, and nothing flows between them. -/
structure Parallel (P : ParamNo) (n : SNode) (S : List Name) : Prop where
  nodup : S.Nodup
  inputs : ∀ s ns, n.inputConnectors s = .ok ns → ∀ c ∈ ns, c ∈ S
  outputs : ∀ s ns, n.outputConnectors s = .ok ns → ∀ c ∈ ns, c ∈ S
  frag : ∀ G, n.frag P = .ok G → G.edges = [] ∧ ∀ c ∈ S, ∃ d ∈ G.nodes, d.name = c ∧ d.kind = .link

variable {n : SNode} (hm : n ∈ N.nodes)
include hm

theorem Parallel.sums {S : List Name} (hp : Parallel P n S) {st : Solver.StepState} {f : Nat → ℚ} (ha : Solver.Allowed C.model st f) :
    (S.map (into F f)).sum = received N F f n.name ∧ (S.map (outOf F f)).sum = sent N F f n.name ∧
    (∀ c ∈ S, into F f c = outOf F f c ∧ nameFlow F f c = outOf F f c) ∧ (∀ c ∈ S, ∃ d ∈ F.nodes, d.name = c) := by
  obtain ⟨G, hG⟩ := frag_of_mem h.compiled hm
  obtain ⟨hE, hl⟩ := hp.frag G hG
  have hown : ∀ c ∈ S, c.1 = n.name := by
    intro c hc
    obtain ⟨d, hd, rfl, _⟩ := hl c hc
    exact (owned P n G hG).nodes d hd
  refine ⟨?_, ?_, ?_, ?_⟩
  · rw [into_inputs h.compiled hm hG f S hp.nodup hown hp.inputs, hE, sumWhere_nil, zero_add]
  · rw [outOf_outputs h.compiled hm hG f S hp.nodup hown hp.outputs, hE, sumWhere_nil, zero_add]
  · intro c hc
    obtain ⟨d, hd, rfl, hk⟩ := hl c hc
    have hd' := mem_nodes h.compiled hm hG hd
    refine ⟨link_balance h.built ha hd' hk, ?_⟩
    rw [nameFlow_eq (names_nodup h.built) f hd']
    unfold coreFlow; rw [hk]
  · intro c hc
    obtain ⟨d, hd, rfl, _⟩ := hl c hc
    exact ⟨d, mem_nodes h.compiled hm hG hd, rfl⟩

theorem Parallel.balance {S : List Name} (hp : Parallel P n S) {st : Solver.StepState} {f : Nat → ℚ} (ha : Solver.Allowed C.model st f) :
    received N F f n.name = sent N F f n.name ∧ (S.map (nameFlow F f)).sum = sent N F f n.name := by
  obtain ⟨h1, h2, h3, _⟩ := hp.sums h hm ha
  constructor
  · rw [← h1, ← h2]
    congr 1
    exact List.map_congr_left (fun c hc => (h3 c hc).1)
  · rw [← h2]
    congr 1
    exact List.map_congr_left (fun c hc => (h3 c hc).2)

end

theorem inputConnectors_inputs {n : SNode} {s ns} (h : n.inputConnectors s = .ok ns) : n.inputs = .ok ns := by
  unfold SNode.inputConnectors at h
  split at h
  · exact h
  · cases h
  · exact h

/-- A type that accepts no slots. -/
theorem outputConnectors_outputs {n : SNode} {s ns} (h : n.outputConnectors s = .ok ns)
    (hb : ∀ b, n.body ≠ .riverSplit b) (hb' : ∀ b, n.body ≠ .abstraction b) (hb'' : ∀ b, n.body ≠ .reservoir b) :
    n.outputs = .ok ns := by
  unfold SNode.outputConnectors at h
  cases hn : n.body with
  | riverSplit b => exact absurd hn (hb b)
  | abstraction b => exact absurd hn (hb' b)
  | reservoir b => exact absurd hn (hb'' b)
  | placeholder => simp only [hn] at h; unfold SNode.outputs; simp only [hn]; exact h
  | _ =>
    simp only [hn] at h
    cases s with
    | none => exact h
    | some s => cases h

theorem stepLoop_names (x : String) (ss : List FlowN) (i : Nat) :
    ∀ j < ss.length, ∃ d ∈ stepLoop x ss i, d.name = stepName x (i + j) ∧ d.kind = .link := by
  induction ss generalizing i with
  | nil => simp
  | cons s ss ih =>
    intro j hj
    cases j with
    | zero => exact ⟨_, List.mem_cons_self, rfl, rfl⟩
    | succ j =>
      obtain ⟨d, hd, h1, h2⟩ := ih (i + 1) j (by simpa using hj)
      exact ⟨d, List.mem_cons_of_mem _ hd, by rw [h1]; congr 1; omega, h2⟩

theorem splitLoop_names (x : String) (ss : List Split) (i : Nat) :
    ∀ j < ss.length, ∃ d ∈ (splitLoop x ss i).nodes, d.name = splitName x (i + j) ∧ d.kind = .link := by
  induction ss generalizing i with
  | nil => simp
  | cons s ss ih =>
    intro j hj
    cases j with
    | zero => exact ⟨_, List.mem_append_left _ List.mem_cons_self, rfl, rfl⟩
    | succ j =>
      obtain ⟨d, hd, h1, h2⟩ := ih (i + 1) j (by simpa using hj)
      exact ⟨d, List.mem_append_right _ hd, by rw [h1]; congr 1; omega, h2⟩

theorem splitLoop_edges (x : String) (ss : List Split) (i : Nat) : (splitLoop x ss i).edges = [] := by
  induction ss generalizing i with
  | nil => rfl
  | cons s ss ih => simp [splitLoop, Frag.add, ih]

/-- The names over which a node of one of these types is spread. -/
def SNode.lanes (n : SNode) : List Name :=
  match n.body with
  | .link b => b.names n.name
  | .riverGauge _ => [(n.name, some "mrf"), (n.name, some "bypass")]
  | .riverSplit b => b.names n.name
  | .pieceLink b => b.names n.name
  | .turbine _ => [(n.name, none)]
  | .abstraction b => (if b.mrf.isSome then [(n.name, some "mrf")] else []) ++ [(n.name, some "bypass"), (n.name, some "abstraction")]
  | _ => []

theorem parallel_link (P : ParamNo) (n : SNode) (b : LinkN) (hb : n.body = .link b) : Parallel P n (b.names n.name) := by
  constructor
  · unfold LinkN.names
    cases b.softMin <;> cases b.softMax <;> simp
  · intro s ns h c hc
    have := inputConnectors_inputs h
    unfold SNode.inputs at this
    simp only [hb, Except.ok.injEq] at this
    exact this ▸ hc
  · intro s ns h c hc
    have := outputConnectors_outputs h (by simp [hb]) (by simp [hb]) (by simp [hb])
    unfold SNode.outputs at this
    simp only [hb, Except.ok.injEq] at this
    exact this ▸ hc
  · intro G hG
    unfold SNode.frag at hG
    simp only [hb, Except.ok.injEq] at hG
    subst hG
    unfold LinkN.frag LinkN.names
    cases b.softMin <;> cases b.softMax <;> simp

theorem parallel_gauge (P : ParamNo) (n : SNode) (b : GaugeN) (hb : n.body = .riverGauge b) :
    Parallel P n [(n.name, some "mrf"), (n.name, some "bypass")] := by
  constructor
  · simp
  · intro s ns h c hc
    have := inputConnectors_inputs h
    unfold SNode.inputs at this
    simp only [hb, Except.ok.injEq] at this
    exact this ▸ hc
  · intro s ns h c hc
    have := outputConnectors_outputs h (by simp [hb]) (by simp [hb]) (by simp [hb])
    unfold SNode.outputs at this
    simp only [hb, Except.ok.injEq] at this
    exact this ▸ hc
  · intro G hG
    unfold SNode.frag at hG
    simp only [hb, Except.ok.injEq] at hG
    subst hG
    simp [GaugeN.frag]

theorem parallel_turbine (P : ParamNo) (n : SNode) (b : TurbineN) (hb : n.body = .turbine b) : Parallel P n [(n.name, none)] := by
  constructor
  · simp
  · intro s ns h c hc
    have := inputConnectors_inputs h
    unfold SNode.inputs at this
    simp only [hb, Except.ok.injEq] at this
    exact this ▸ hc
  · intro s ns h c hc
    have := outputConnectors_outputs h (by simp [hb]) (by simp [hb]) (by simp [hb])
    unfold SNode.outputs at this
    simp only [hb, Except.ok.injEq] at this
    exact this ▸ hc
  · intro G hG
    unfold SNode.frag at hG
    simp only [hb, Except.ok.injEq] at hG
    subst hG
    simp [TurbineN.frag]

theorem parallel_pieceLink (P : ParamNo) (n : SNode) (b : PieceLinkN) (hb : n.body = .pieceLink b) : Parallel P n (b.names n.name) := by
  constructor
  · exact range_nodup (fun _ _ => stepName_inj) _
  · intro s ns h c hc
    have := inputConnectors_inputs h
    unfold SNode.inputs at this
    simp only [hb, Except.ok.injEq] at this
    exact this ▸ hc
  · intro s ns h c hc
    have := outputConnectors_outputs h (by simp [hb]) (by simp [hb]) (by simp [hb])
    unfold SNode.outputs at this
    simp only [hb, Except.ok.injEq] at this
    exact this ▸ hc
  · intro G hG
    unfold SNode.frag at hG
    simp only [hb, Except.ok.injEq] at hG
    subst hG
    refine ⟨rfl, ?_⟩
    intro c hc
    unfold PieceLinkN.names at hc
    obtain ⟨j, hj, rfl⟩ := List.mem_map.1 hc
    have := stepLoop_names n.name b.steps 0 j (by simpa using hj)
    simpa [PieceLinkN.frag] using this

theorem parallel_split (P : ParamNo) (n : SNode) (b : SplitN) (hb : n.body = .riverSplit b) : Parallel P n (b.names n.name) := by
  constructor
  · unfold SplitN.names
    rw [List.nodup_append]
    refine ⟨by simp, range_nodup (fun _ _ => splitName_inj) _, ?_⟩
    intro a ha c hc
    obtain ⟨j, _, rfl⟩ := List.mem_map.1 hc
    have := splitName_ne n.name j
    simp only [List.mem_cons, List.not_mem_nil, or_false] at ha
    rcases ha with rfl | rfl
    · exact Ne.symm this.1
    · exact Ne.symm this.2
  · intro s ns h c hc
    have := inputConnectors_inputs h
    unfold SNode.inputs at this
    simp only [hb, Except.ok.injEq] at this
    exact this ▸ hc
  · intro s ns h c hc
    unfold SNode.outputConnectors at h
    simp only [hb] at h
    have hs : ∀ i, i < b.splits.length → splitName n.name i ∈ b.names n.name := by
      intro i hi
      unfold SplitN.names
      exact List.mem_append_right _ (List.mem_map_of_mem (List.mem_range.2 hi))
    split at h
    · simp only [Except.ok.injEq] at h; exact h ▸ hc
    · simp only [Except.ok.injEq] at h; exact h ▸ hc
    · split at h
      · rename_i hi
        simp only [Except.ok.injEq] at h
        rw [← h, List.mem_singleton] at hc
        exact hc ▸ hs _ hi
      · cases h
    · split at h
      · rename_i i hi
        simp only [Except.ok.injEq] at h
        rw [← h, List.mem_singleton] at hc
        exact hc ▸ hs _ (List.findIdx?_eq_some_iff_getElem.1 hi).1
      · cases h
    · cases h
  · intro G hG
    unfold SNode.frag at hG
    simp only [hb, Except.ok.injEq] at hG
    subst hG
    refine ⟨by simp [SplitN.frag, Frag.add, splitLoop_edges], ?_⟩
    intro c hc
    unfold SplitN.names at hc
    rcases List.mem_append.1 hc with hc | hc
    · simp only [List.mem_cons, List.not_mem_nil, or_false] at hc
      rcases hc with rfl | rfl
      · exact ⟨_, List.mem_append_right _ (List.mem_cons_self), rfl, rfl⟩
      · exact ⟨_, List.mem_append_right _ (List.mem_cons_of_mem _ List.mem_cons_self), rfl, rfl⟩
    · obtain ⟨j, hj, rfl⟩ := List.mem_map.1 hc
      obtain ⟨d, hd, h1, h2⟩ := splitLoop_names n.name b.splits 0 j (by simpa using hj)
      exact ⟨d, List.mem_append_left _ hd, by simpa using h1, h2⟩

theorem parallel_abstraction (P : ParamNo) (n : SNode) (b : AbstractionN) (hb : n.body = .abstraction b) :
    Parallel P n ((if b.mrf.isSome then [(n.name, some "mrf")] else []) ++ [(n.name, some "bypass"), (n.name, some "abstraction")]) := by
  constructor
  · cases b.mrf <;> simp
  · intro s ns h c hc
    have := inputConnectors_inputs h
    unfold SNode.inputs at this
    simp only [hb, Except.ok.injEq] at this
    subst this
    cases hmrf : b.mrf <;> simp [hmrf] at hc ⊢ <;> tauto
  · intro s ns h c hc
    unfold SNode.outputConnectors at h
    simp only [hb] at h
    split at h
    · simp only [Except.ok.injEq] at h; subst h; cases hmrf : b.mrf <;> simp [hmrf] at hc ⊢ <;> tauto
    · simp only [Except.ok.injEq] at h; subst h; cases hmrf : b.mrf <;> simp [hmrf] at hc ⊢ <;> tauto
    · simp only [Except.ok.injEq] at h; subst h; cases hmrf : b.mrf <;> simp at hc ⊢ <;> tauto
    · cases h
  · intro G hG
    unfold SNode.frag at hG
    simp only [hb] at hG
    unfold AbstractionN.frag at hG
    cases hmrf : b.mrf with
    | some m => simp only [hmrf, Except.ok.injEq] at hG; subst hG; simp
    | none =>
      simp only [hmrf] at hG
      split at hG
      · cases hG
      · simp only [Except.ok.injEq] at hG; subst hG; simp

end Verif.Schema
