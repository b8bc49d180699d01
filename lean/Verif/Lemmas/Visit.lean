import Verif.Spec.Rename

/-! # Visitors -/

namespace Verif.Visit

theorem met_references (m : Met) (x : String) : x ∈ m.references ↔ Says m x := by
  cases m with
  | node y a =>
    simp only [Met.references, List.mem_singleton]
    exact ⟨fun h => h ▸ .node y a, fun h => by cases h; rfl⟩
  | virtualNode y a =>
    simp only [Met.references, List.mem_singleton]
    exact ⟨fun h => h ▸ .virtualNode y a, fun h => by cases h; rfl⟩
  | edge e =>
    simp only [Met.references, List.mem_cons, List.not_mem_nil, or_false]
    exact ⟨fun h => by rcases h with h | h <;> subst h; exacts [.source e, .target e], fun h => by cases h; exacts [.inl rfl, .inr rfl]⟩
  | other t =>
    simp only [Met.references, List.not_mem_nil, false_iff]
    intro h
    cases h

mutual
theorem references_iff (i : Item) (x : String) : x ∈ i.references ↔ Refers i x := by
  cases i with
  | metric m =>
    rw [Item.references, met_references]
    exact ⟨.metric, fun h => by cases h; assumption⟩
  | index m =>
    rw [Item.references, met_references]
    exact ⟨.index, fun h => by cases h; assumption⟩
  | array ms =>
    rw [Item.references, List.mem_flatMap]
    exact ⟨fun ⟨m, hm, h⟩ => .array hm ((met_references m x).1 h), fun h => by cases h with | array hm h => exact ⟨_, hm, (met_references _ x).2 h⟩⟩
  | reference y =>
    rw [Item.references, List.mem_singleton]
    exact ⟨fun h => h ▸ .reference y, fun h => by cases h; rfl⟩
  | path p => simp only [Item.references, List.not_mem_nil, false_iff]; intro h; cases h
  | plain t => simp only [Item.references, List.not_mem_nil, false_iff]; intro h; cases h
  | list is =>
    rw [Item.references, referencesAll_iff is x]
    exact ⟨fun ⟨i, hi, h⟩ => .list hi h, fun h => by cases h with | list hi h => exact ⟨_, hi, h⟩⟩
theorem referencesAll_iff (is : List Item) (x : String) : x ∈ Item.referencesAll is ↔ ∃ i ∈ is, Refers i x := by
  cases is with
  | nil => simp [Item.referencesAll]
  | cons i is =>
    rw [Item.referencesAll, List.mem_append, references_iff i x, referencesAll_iff is x]
    simp
end

theorem met_map (f : String → String) (m : Met) : (m.mapReferences f).references = m.references.map f := by
  cases m <;> rfl

mutual
theorem map_references (f : String → String) (i : Item) : (i.mapReferences f).references = i.references.map f := by
  cases i with
  | metric m => exact met_map f m
  | index m => exact met_map f m
  | array ms =>
    simp only [Item.mapReferences, Item.references, List.flatMap_map, List.map_flatMap, met_map]
  | reference y => rfl
  | path p => rfl
  | plain t => rfl
  | list is =>
    simp only [Item.mapReferences, Item.references]
    exact map_referencesAll f is
theorem map_referencesAll (f : String → String) (is : List Item) :
    Item.referencesAll (Item.mapReferencesAll f is) = (Item.referencesAll is).map f := by
  cases is with
  | nil => rfl
  | cons i is =>
    rw [Item.mapReferencesAll, Item.referencesAll, Item.referencesAll, map_references f i, map_referencesAll f is, List.map_append]
end

theorem met_keep (f : String → String) (m : Met) (h : ∀ x ∈ m.references, f x = x) : m.mapReferences f = m := by
  cases m <;> simp_all [Met.references, Met.mapReferences]

mutual
theorem map_keep (f : String → String) (i : Item) (h : ∀ x ∈ i.references, f x = x) : i.mapReferences f = i := by
  cases i with
  | metric m => rw [Item.mapReferences, met_keep f m h]
  | index m => rw [Item.mapReferences, met_keep f m h]
  | array ms =>
    rw [Item.mapReferences]
    have : ms.map (Met.mapReferences f) = ms.map id :=
      List.map_congr_left fun m hm => met_keep f m fun x hx => h x (by rw [Item.references]; exact List.mem_flatMap.2 ⟨m, hm, hx⟩)
    rw [this, List.map_id]
  | reference y => rw [Item.mapReferences, h y (by simp [Item.references])]
  | path p => rfl
  | plain t => rfl
  | list is => rw [Item.mapReferences, map_keepAll f is h]
theorem map_keepAll (f : String → String) (is : List Item) (h : ∀ x ∈ Item.referencesAll is, f x = x) :
    Item.mapReferencesAll f is = is := by
  cases is with
  | nil => rfl
  | cons i is =>
    rw [Item.referencesAll] at h
    rw [Item.mapReferencesAll, map_keep f i fun x hx => h x (List.mem_append_left _ hx),
      map_keepAll f is fun x hx => h x (List.mem_append_right _ hx)]
end

mutual
theorem metrics_holds (i : Item) (m : Met) (h : m ∈ i.metrics) : Holds i m := by
  cases i with
  | metric m' =>
    rw [Item.metrics, List.mem_singleton] at h
    exact h ▸ .metric m'
  | list is =>
    rw [Item.metrics] at h
    obtain ⟨i, hi, h⟩ := metricsAll_holds is m h
    exact .list hi h
  | _ => simp [Item.metrics] at h
theorem metricsAll_holds (is : List Item) (m : Met) (h : m ∈ Item.metricsAll is) : ∃ i ∈ is, Holds i m := by
  cases is with
  | nil => simp [Item.metricsAll] at h
  | cons i is =>
    rw [Item.metricsAll, List.mem_append] at h
    rcases h with h | h
    · exact ⟨i, List.mem_cons_self, metrics_holds i m h⟩
    · obtain ⟨j, hj, h⟩ := metricsAll_holds is m h
      exact ⟨j, List.mem_cons_of_mem _ hj, h⟩
end

theorem mem_metricsAll {is : List Item} {i : Item} {m : Met} (hi : i ∈ is) (h : m ∈ i.metrics) : m ∈ Item.metricsAll is := by
  induction is with
  | nil => cases hi
  | cons j is ih =>
    rw [Item.metricsAll, List.mem_append]
    rcases List.mem_cons.1 hi with rfl | hi
    · exact .inl h
    · exact .inr (ih hi)

theorem holds_metrics {i : Item} {m : Met} (h : Holds i m) (hp : Plain i) : m ∈ i.metrics := by
  induction h with
  | metric m => simp [Item.metrics]
  | array hm => cases hp
  | list hi _ ih =>
    cases hp with
    | list hp =>
      rw [Item.metrics]
      exact mem_metricsAll hi (ih (hp _ hi))

theorem mem_pathsAll {is : List Item} {i : Item} {p : String} (hi : i ∈ is) (h : p ∈ i.paths) : p ∈ Item.pathsAll is := by
  induction is with
  | nil => cases hi
  | cons j is ih =>
    rw [Item.pathsAll, List.mem_append]
    rcases List.mem_cons.1 hi with rfl | hi
    · exact .inl h
    · exact .inr (ih hi)

theorem written_paths {i : Item} {p : String} (h : Written i p) : p ∈ i.paths := by
  induction h with
  | path p => simp [Item.paths]
  | list hi _ ih =>
    rw [Item.paths]
    exact mem_pathsAll hi ih

mutual
theorem paths_written (i : Item) (p : String) (h : p ∈ i.paths) : Written i p := by
  cases i with
  | path q =>
    rw [Item.paths, List.mem_singleton] at h
    exact h ▸ .path q
  | list is =>
    rw [Item.paths] at h
    obtain ⟨i, hi, h⟩ := pathsAll_written is p h
    exact .list hi h
  | _ => simp [Item.paths] at h
theorem pathsAll_written (is : List Item) (p : String) (h : p ∈ Item.pathsAll is) : ∃ i ∈ is, Written i p := by
  cases is with
  | nil => simp [Item.pathsAll] at h
  | cons i is =>
    rw [Item.pathsAll, List.mem_append] at h
    rcases h with h | h
    · exact ⟨i, List.mem_cons_self, paths_written i p h⟩
    · obtain ⟨j, hj, h⟩ := pathsAll_written is p h
      exact ⟨j, List.mem_cons_of_mem _ hj, h⟩
end

theorem pathsAll_iff (is : List Item) (p : String) : p ∈ Item.pathsAll is ↔ ∃ i ∈ is, Written i p :=
  ⟨pathsAll_written is p, fun ⟨_, hi, h⟩ => mem_pathsAll hi (written_paths h)⟩

end Verif.Visit
