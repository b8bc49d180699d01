import Verif.Props.Rename

/-!
# C101: visitors that change what they visit

What `visit_paths_mut`, `visit_metrics_mut` and `visit_node_references_mut` change in a value of the schema and in a network, and what they leave.
-/

namespace Verif.Rename

open Visit

mutual
theorem changed_self (i : Item) : Changed id id id id i i := by
  cases i with
  | metric m => exact .metric m
  | index m => exact .index m
  | array ms => exact .array (by induction ms with | nil => exact .nil | cons m ms ih => exact .cons rfl ih)
  | reference x => exact .reference x
  | path p => exact .path p
  | plain t => exact .plain t
  | list is => exact .list (changed_selfAll is)
theorem changed_selfAll (is : List Item) : List.Forall₂ (Changed id id id id) is is := by
  cases is with
  | nil => exact .nil
  | cons i is => exact .cons (changed_self i) (changed_selfAll is)
end

mutual
/-- There is only one way to change a value. -/
theorem changed_unique {a b : Met → Met} {c d : String → String} (i j k : Item) (h : Changed a b c d i j) (h' : Changed a b c d i k) : j = k := by
  cases i with
  | list is =>
    cases h with
    | list h => cases h' with | list h' => rw [changed_uniqueAll is _ _ h h']
  | array ms =>
    cases h with
    | array h =>
      cases h' with
      | array h' =>
        congr 1
        clear * - h h'
        rename_i ms₁ ms₂
        induction h generalizing ms₂ with
        | nil => cases h'; rfl
        | cons e _ ih => cases h' with | cons e' h' => rw [e, e', ih h']
  | _ => cases h; cases h'; rfl
theorem changed_uniqueAll {a b : Met → Met} {c d : String → String} (is js ks : List Item) (h : List.Forall₂ (Changed a b c d) is js)
    (h' : List.Forall₂ (Changed a b c d) is ks) : js = ks := by
  cases is with
  | nil => cases h; cases h'; rfl
  | cons i is =>
    cases h with
    | cons h hs => cases h' with | cons h' hs' => rw [changed_unique i _ _ h h', changed_uniqueAll is _ _ hs hs']
end

mutual
theorem paths_changed (f : String → String) (i : Item) : Changed id id id f i (i.mapPaths f) := by
  cases i with
  | metric m => exact .metric m
  | index m => exact .index m
  | array ms => exact .array (by induction ms with | nil => exact .nil | cons m ms ih => exact .cons rfl ih)
  | reference x => exact .reference x
  | path p => exact .path p
  | plain t => exact .plain t
  | list is => exact .list (paths_changedAll f is)
theorem paths_changedAll (f : String → String) (is : List Item) : List.Forall₂ (Changed id id id f) is (Item.mapPathsAll f is) := by
  cases is with
  | nil => exact .nil
  | cons i is => exact .cons (paths_changed f i) (paths_changedAll f is)
end

mutual
theorem metrics_changed (f : Met → Met) (i : Item) : Changed f id id id i (i.mapMetrics f) := by
  cases i with
  | metric m => exact .metric m
  | index m => exact .index m
  | array ms => exact .array (by induction ms with | nil => exact .nil | cons m ms ih => exact .cons rfl ih)
  | reference x => exact .reference x
  | path p => exact .path p
  | plain t => exact .plain t
  | list is => exact .list (metrics_changedAll f is)
theorem metrics_changedAll (f : Met → Met) (is : List Item) : List.Forall₂ (Changed f id id id) is (Item.mapMetricsAll f is) := by
  cases is with
  | nil => exact .nil
  | cons i is => exact .cons (metrics_changed f i) (metrics_changedAll f is)
end

theorem called (f : String → String) (m : Met) : m.mapReferences f = m.called f := by
  cases m <;> rfl

mutual
theorem references_changed (f : String → String) (i : Item) : Changed (Met.called f) (Met.called f) f id i (i.mapReferences f) := by
  cases i with
  | metric m => rw [Item.mapReferences, called]; exact .metric m
  | index m => rw [Item.mapReferences, called]; exact .index m
  | array ms =>
    rw [Item.mapReferences]
    exact .array (by induction ms with | nil => exact .nil | cons m ms ih => exact .cons (called f m) ih)
  | reference x => exact .reference x
  | path p => exact .path p
  | plain t => exact .plain t
  | list is => exact .list (references_changedAll f is)
theorem references_changedAll (f : String → String) (is : List Item) :
    List.Forall₂ (Changed (Met.called f) (Met.called f) f id) is (Item.mapReferencesAll f is) := by
  cases is with
  | nil => exact .nil
  | cons i is => exact .cons (references_changed f i) (references_changedAll f is)
end

/-- **C101 (changing visitors, values).** In a value of the schema the visitors change the paths, the metrics outside arrays, or the names of nodes by
the function given, and nothing else. -/
theorem C101_changes (i j : Item) :
    (∀ f, i.mapPaths f = j ↔ Changed id id id f i j) ∧ (∀ f, i.mapMetrics f = j ↔ Changed f id id id i j) ∧
    ∀ f, i.mapReferences f = j ↔ Changed (Met.called f) (Met.called f) f id i j :=
  ⟨fun f => ⟨fun h => h ▸ paths_changed f i, changed_unique i _ _ (paths_changed f i)⟩,
    fun f => ⟨fun h => h ▸ metrics_changed f i, changed_unique i _ _ (metrics_changed f i)⟩,
    fun f => ⟨fun h => h ▸ references_changed f i, changed_unique i _ _ (references_changed f i)⟩⟩

/-- **C101 (changing visitors, paths).** In a network the files of nodes, parameters, series and outputs are changed, and nothing else. Missing: those of
tables (`C101_moved_refuted`). -/
theorem C101_moved_partial (f : String → String) (S T : Visit.Schema) : S.mapPaths f = T ↔
    List.Forall₂ (Changed id id id f) S.nodes T.nodes ∧ List.Forall₂ (Changed id id id f) S.parameters T.parameters ∧
    List.Forall₂ (Changed id id id f) S.timeseries T.timeseries ∧ List.Forall₂ (Changed id id id f) S.outputs T.outputs ∧
    T.virtualNodes = S.virtualNodes ∧ T.edges = S.edges ∧ T.tables = S.tables ∧ T.metricSets = S.metricSets := by
  constructor
  · rintro rfl
    exact ⟨paths_changedAll f _, paths_changedAll f _, paths_changedAll f _, paths_changedAll f _, rfl, rfl, rfl, rfl⟩
  · rintro ⟨h1, h2, h3, h4, h5, h6, h7, h8⟩
    cases T
    simp only at h1 h2 h3 h4 h5 h6 h7 h8
    subst h5 h6 h7 h8
    rw [← changed_uniqueAll _ _ _ (paths_changedAll f _) h1, ← changed_uniqueAll _ _ _ (paths_changedAll f _) h2,
      ← changed_uniqueAll _ _ _ (paths_changedAll f _) h3, ← changed_uniqueAll _ _ _ (paths_changedAll f _) h4]
    rfl

/-- A file of a table stays where it was, whatever paths are changed to: a network whose files are moved still needs the old one. -/
theorem C101_moved_refuted : ∃ (S : Visit.Schema) (p : String), S.Needs p ∧ ∀ f, (S.mapPaths f).Needs p := by
  have h : ∀ S : Visit.Schema, S.tables = [.path "demand.csv"] → S.Needs "demand.csv" := fun S h => ⟨.path "demand.csv", by simp [h], .path _⟩
  exact ⟨⟨[], [], [], [], [.path "demand.csv"], [], [], []⟩, "demand.csv", h _ rfl, fun f => h _ rfl⟩

/-- **C101 (changing visitors, metrics).** In a network the metrics of nodes, virtual nodes, parameters and metric sets are changed, and nothing else. -/
theorem C101_replaced (f : Met → Met) (S T : Visit.Schema) : S.mapMetrics f = T ↔
    List.Forall₂ (Changed f id id id) S.nodes T.nodes ∧ List.Forall₂ (Changed f id id id) S.virtualNodes T.virtualNodes ∧
    List.Forall₂ (Changed f id id id) S.parameters T.parameters ∧ T.metricSets = S.metricSets.map (·.map f) ∧
    T.edges = S.edges ∧ T.tables = S.tables ∧ T.timeseries = S.timeseries ∧ T.outputs = S.outputs := by
  constructor
  · rintro rfl
    exact ⟨metrics_changedAll f _, metrics_changedAll f _, metrics_changedAll f _, rfl, rfl, rfl, rfl, rfl⟩
  · rintro ⟨h1, h2, h3, h4, h5, h6, h7, h8⟩
    cases T
    simp only at h1 h2 h3 h4 h5 h6 h7 h8
    subst h4 h5 h6 h7 h8
    rw [← changed_uniqueAll _ _ _ (metrics_changedAll f _) h1, ← changed_uniqueAll _ _ _ (metrics_changedAll f _) h2,
      ← changed_uniqueAll _ _ _ (metrics_changedAll f _) h3]
    rfl

/-- **C101 (changing visitors, references).** In a network the names of nodes in edges, nodes, virtual nodes, parameters and metric sets are changed, and
nothing else. -/
theorem C101_renamed (f : String → String) (S T : Visit.Schema) : S.mapReferences f = T ↔
    List.Forall₂ (Changed (Met.called f) (Met.called f) f id) S.nodes T.nodes ∧
    List.Forall₂ (Changed (Met.called f) (Met.called f) f id) S.virtualNodes T.virtualNodes ∧
    List.Forall₂ (Changed (Met.called f) (Met.called f) f id) S.parameters T.parameters ∧
    T.metricSets = S.metricSets.map (·.map (Met.called f)) ∧ T.edges = S.edges.map (fun e => ⟨f e.src, f e.dst, e.srcSlot, e.dstSlot⟩) ∧
    T.tables = S.tables ∧ T.timeseries = S.timeseries ∧ T.outputs = S.outputs := by
  have hf : Met.mapReferences f = Met.called f := funext (called f)
  constructor
  · rintro rfl
    refine ⟨references_changedAll f _, references_changedAll f _, references_changedAll f _, ?_, rfl, rfl, rfl, rfl⟩
    simp only [Schema.mapReferences, hf]
  · rintro ⟨h1, h2, h3, h4, h5, h6, h7, h8⟩
    cases T
    simp only at h1 h2 h3 h4 h5 h6 h7 h8
    subst h4 h5 h6 h7 h8
    rw [← changed_uniqueAll _ _ _ (references_changedAll f _) h1, ← changed_uniqueAll _ _ _ (references_changedAll f _) h2,
      ← changed_uniqueAll _ _ _ (references_changedAll f _) h3, ← hf]
    rfl

mutual
theorem paths_map (f : String → String) (i : Item) : (i.mapPaths f).paths = i.paths.map f := by
  cases i with
  | list is => exact paths_mapAll f is
  | _ => rfl
theorem paths_mapAll (f : String → String) (is : List Item) : Item.pathsAll (Item.mapPathsAll f is) = (Item.pathsAll is).map f := by
  cases is with
  | nil => rfl
  | cons i is => rw [Item.mapPathsAll, Item.pathsAll, Item.pathsAll, paths_map f i, paths_mapAll f is, List.map_append]
end

mutual
theorem metrics_map (f : Met → Met) (i : Item) : (i.mapMetrics f).metrics = i.metrics.map f := by
  cases i with
  | list is => exact metrics_mapAll f is
  | _ => rfl
theorem metrics_mapAll (f : Met → Met) (is : List Item) : Item.metricsAll (Item.mapMetricsAll f is) = (Item.metricsAll is).map f := by
  cases is with
  | nil => rfl
  | cons i is => rw [Item.mapMetricsAll, Item.metricsAll, Item.metricsAll, metrics_map f i, metrics_mapAll f is, List.map_append]
end

/-- **C101 (both kinds of visitors).** What is visited in a network after a change is what was visited before, changed by the function and in the same
order: visitors that change and visitors that only look agree on the places they go to. -/
theorem C101_agree (S : Visit.Schema) : (∀ f, (S.mapPaths f).paths = S.paths.map f) ∧ (∀ f, (S.mapMetrics f).metrics = S.metrics.map f) ∧
    ∀ f, (S.mapReferences f).references = S.references.map f := by
  refine ⟨fun f => ?_, fun f => ?_, fun f => ?_⟩
  · simp only [Schema.paths, Schema.mapPaths, paths_mapAll, List.map_append]
  · simp only [Schema.metrics, Schema.mapMetrics, metrics_mapAll, List.map_append, List.map_flatten]
  · simp only [Schema.references, Schema.mapReferences, map_referencesAll, List.map_append, List.flatMap_map, List.map_flatMap, met_map,
      List.map_cons, List.map_nil]

end Verif.Rename
