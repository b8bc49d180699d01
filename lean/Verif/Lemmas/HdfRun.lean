import Verif.Lemmas.Hdf

/-!
# Setting up and filling files
-/

namespace Verif.Hdf

open Verif.Time

variable {σ : Type}

/-- A data set in a required group. -/
theorem placed {D : List (Path × Obj)} {f : File} (h : Look D f) (name attr : String) {o : Obj} (ho : o ≠ .group) :
    (∀ f1 g f' p, requireGroup f name = .ok (f1, g) → newDataset f1 g attr o = .ok (f', p) →
      name ≠ "" ∧ links attr ≠ [] ∧ Fresh D (links name ++ links attr) ∧ p = links name ++ links attr ∧
        Look (D ++ [(links name ++ links attr, o)]) f') ∧
    (name ≠ "" → links attr ≠ [] → Fresh D (links name ++ links attr) →
      ∃ f1 f', requireGroup f name = .ok (f1, links name) ∧ newDataset f1 (links name) attr o = .ok (f', links name ++ links attr)) := by
  obtain ⟨r1, r2⟩ := requireGroup_spec h name
  constructor
  · intro f1 g f' p h1 h2
    obtain ⟨a1, rfl, a2, a3⟩ := r1 f1 g h1
    obtain ⟨rfl, b1, b2, b3, b4⟩ := (newDataset_spec a2 a3 attr o).1 f' p h2
    have hp : links name ++ links attr ≠ [] := by simp [b1]
    have hf := (h.fresh hp).mp b2
    exact ⟨a1, b1, hf, rfl, h.add hp ho hf b3 b4⟩
  · intro h1 h2 h3
    have hp : links name ++ links attr ≠ [] := by simp [h2]
    obtain ⟨f1, e1⟩ := r2 _ h2 h1 ((h.fresh hp).mpr h3)
    obtain ⟨-, -, a2, a3⟩ := r1 f1 _ e1
    obtain ⟨f', e2⟩ := (newDataset_spec a2 a3 attr o).2 h2 ((h.fresh hp).mpr h3)
    exact ⟨f1, f', e1, e2⟩

/-- The values of a metric. -/
def values (R : Metric σ → List (List ℚ)) (m : Metric σ) : Path × Obj := (m.path, .values (R m) m.ty m.subType)

/-- Nothing but zeros. -/
def blank (steps scenarios : Nat) : Metric σ → List (List ℚ) := fun _ => List.replicate steps (List.replicate scenarios 0)

theorem metricDataset_spec {D : List (Path × Obj)} {f : File} (h : Look D f) (a b : Nat) (m : Metric σ) :
    (∀ f' p, metricDataset f a b m = .ok (f', p) →
      (m.name ≠ "" ∧ links m.attr ≠ []) ∧ Fresh D m.path ∧ p = m.path ∧ Look (D ++ [values (blank a b) m]) f') ∧
    ((m.name ≠ "" ∧ links m.attr ≠ []) → Fresh D m.path → ∃ f', metricDataset f a b m = .ok (f', m.path)) := by
  obtain ⟨p1, p2⟩ := placed h m.name m.attr (o := .values (List.replicate a (List.replicate b 0)) m.ty m.subType) (by simp)
  constructor
  · intro f' p he
    unfold metricDataset at he
    rcases h1 : requireGroup f m.name with e | ⟨f1, g⟩
    · rw [h1] at he; cases he
    · rw [h1] at he
      obtain ⟨c1, c2, c3, c4, c5⟩ := p1 f1 g f' p h1 he
      exact ⟨⟨c1, c2⟩, c3, c4, c5⟩
  · rintro ⟨c1, c2⟩ c3
    obtain ⟨f1, f', e1, e2⟩ := p2 c1 c2 c3
    exact ⟨f', by rw [metricDataset, e1]; exact e2⟩

theorem metricDatasets_spec (a b : Nat) (ms : List (Metric σ)) {D : List (Path × Obj)} {f : File} (h : Look D f) :
    (∀ f' ps, metricDatasets a b f ms = .ok (f', ps) →
      (∀ m ∈ ms, m.name ≠ "" ∧ links m.attr ≠ []) ∧ ps = ms.map Metric.path ∧ Look (D ++ ms.map (values (blank a b))) f') ∧
    ((∀ m ∈ ms, m.name ≠ "" ∧ links m.attr ≠ []) → (D.map Prod.fst ++ ms.map Metric.path).Pairwise Clear →
      ∃ r, metricDatasets a b f ms = .ok r) := by
  induction ms generalizing D f with
  | nil =>
    refine ⟨fun f' ps he => ?_, fun _ _ => ⟨(f, []), rfl⟩⟩
    simp only [metricDatasets, Except.ok.injEq, Prod.mk.injEq] at he
    obtain ⟨rfl, rfl⟩ := he
    exact ⟨by simp, rfl, by simpa using h⟩
  | cons m ms ih =>
    obtain ⟨s1, s2⟩ := metricDataset_spec h a b m
    constructor
    · intro f' ps he
      rw [metricDatasets] at he
      rcases h1 : metricDataset f a b m with e | ⟨f1, p⟩
      · rw [h1] at he; cases he
      · rw [h1] at he
        obtain ⟨c1, c2, rfl, c4⟩ := s1 f1 p h1
        rcases h2 : metricDatasets a b f1 ms with e | ⟨f2, qs⟩
        · simp only [h2] at he; cases he
        · simp only [h2, Except.ok.injEq, Prod.mk.injEq] at he
          obtain ⟨rfl, rfl⟩ := he
          obtain ⟨d1, rfl, d3⟩ := (ih c4).1 f2 qs h2
          refine ⟨?_, rfl, by simpa using d3⟩
          intro x hx
          rcases List.mem_cons.mp hx with rfl | hx
          · exact c1
          · exact d1 x hx
    · intro hn hc
      have hc' := hc
      rw [List.map_cons, List.pairwise_append] at hc
      have hfresh : Fresh D m.path := by
        intro d hd
        exact hc.2.2 d.1 (List.mem_map_of_mem hd) m.path List.mem_cons_self
      obtain ⟨f1, e1⟩ := s2 (hn m List.mem_cons_self) hfresh
      obtain ⟨-, -, -, c4⟩ := s1 f1 _ e1
      obtain ⟨r, e2⟩ := (ih c4).2 (fun x hx => hn x (List.mem_cons_of_mem _ hx)) (by
        simpa [values] using hc')
      obtain ⟨f2, qs⟩ := r
      exact ⟨(f2, m.path :: qs), by simp only [metricDatasets, e1, e2]⟩

/-- The tables of a file. -/
def tablesOf (d : Scenario.Domain) (times : List Timestep) : List (Path × Obj) :=
  [(["scenarios".toList, "groups".toList], .groups (d.groups.map groupRow)),
   (["scenarios".toList, "indices".toList], .scenarios (d.indices.map scenarioRow)),
   (["time".toList], .times (times.map Stamp.of))]

theorem look_nil : Look [] [] :=
  ⟨⟨by simp, by simp⟩, by simp, by simp, by simp⟩

theorem links_scenarios : links "scenarios" = ["scenarios".toList] := by decide +kernel
theorem links_groups : links "groups" = ["groups".toList] := by decide +kernel
theorem links_indices : links "indices" = ["indices".toList] := by decide +kernel
theorem links_time : links "time" = ["time".toList] := by decide +kernel

instance (p q : Path) : Decidable (Clear p q) := by unfold Clear; infer_instance

/-- The tables are written first. -/
theorem tables_spec (d : Scenario.Domain) (times : List Timestep) :
    ∃ f f', scenarioTables [] d = .ok f ∧ newDataset f [] "time" (.times (times.map Stamp.of)) = .ok (f', ["time".toList]) ∧
      Look (tablesOf d times) f' := by
  obtain ⟨p1, p2⟩ := placed look_nil "scenarios" "groups" (o := .groups (d.groups.map groupRow)) (by simp)
  obtain ⟨f1, f2, e1, e2⟩ := p2 (by decide) (by decide +kernel) (by intro d hd; cases hd)
  obtain ⟨-, -, -, -, l1⟩ := p1 _ _ _ _ e1 e2
  rw [links_scenarios, links_groups, List.nil_append] at l1
  rw [links_scenarios] at e1
  rw [links_scenarios, links_groups] at e2
  have hg : find f2 ["scenarios".toList] = some .group := by
    rw [find_some l1.sound (by simp)]
    exact (l1.mem _ _).mpr (.inr ⟨rfl, by simp, _, List.mem_singleton.mpr rfl, by simp, by simp⟩)
  have hp2 : ["scenarios".toList] ++ links "indices" ≠ [] := by simp
  have hf2 : Fresh [(["scenarios".toList] ++ ["groups".toList], Obj.groups (d.groups.map groupRow))] (["scenarios".toList] ++ links "indices") := by
    intro x hx
    rw [List.mem_singleton] at hx
    subst hx
    rw [links_indices]
    show Clear ["scenarios".toList, "groups".toList] ["scenarios".toList, "indices".toList]
    decide +kernel
  obtain ⟨q1, q2⟩ := newDataset_spec l1.sound (Through.refl l1 hg) "indices" (.scenarios (d.indices.map scenarioRow))
  obtain ⟨f3, e3⟩ := q2 (by decide +kernel) ((l1.fresh hp2).mpr hf2)
  obtain ⟨-, -, b2, b3, b4⟩ := q1 _ _ e3
  have l2 := l1.add hp2 (by simp) hf2 b3 b4
  have hf3 : Fresh ([(["scenarios".toList] ++ ["groups".toList], Obj.groups (d.groups.map groupRow))] ++
      [(["scenarios".toList] ++ links "indices", Obj.scenarios (d.indices.map scenarioRow))]) ([] ++ links "time") := by
    intro x hx
    rw [links_indices] at hx
    rw [links_time]
    simp only [List.cons_append, List.nil_append, List.mem_cons, List.not_mem_nil, or_false] at hx
    rcases hx with rfl | rfl
    · show Clear ["scenarios".toList, "groups".toList] ["time".toList]
      decide +kernel
    · show Clear ["scenarios".toList, "indices".toList] ["time".toList]
      decide +kernel
  obtain ⟨r1, r2⟩ := newDataset_spec l2.sound (Through.refl l2 (g := []) rfl) "time" (.times (times.map Stamp.of))
  obtain ⟨f4, e4⟩ := r2 (by decide +kernel) ((l2.fresh (by decide +kernel)).mpr hf3)
  obtain ⟨-, -, c2, c3, c4⟩ := r1 _ _ e4
  have l3 := l2.add (by decide +kernel) (by simp) hf3 c3 c4
  refine ⟨f3, f4, ?_, ?_, ?_⟩
  · simp only [scenarioTables, e1, e2, e3]
  · rw [links_time] at e4; exact e4
  · rw [links_indices, links_time] at l3; exact l3

theorem tablesOf_fst (d : Scenario.Domain) (times : List Timestep) : (tablesOf d times).map Prod.fst = tables := rfl

theorem setup_spec (d : Scenario.Domain) (times : List Timestep) (set : Set σ) :
    (∀ f ps, setup d times set = .ok (f, ps) → set.Fits ∧ ps = set.metrics.map Metric.path ∧
      Look (tablesOf d times ++ set.metrics.map (values (blank times.length d.indices.length))) f) ∧
    (set.Fits → ∃ r, setup d times set = .ok r) := by
  obtain ⟨f1, f2, e1, e2, l⟩ := tables_spec d times
  obtain ⟨m1, m2⟩ := metricDatasets_spec times.length d.indices.length set.metrics l
  have e : setup d times set = metricDatasets times.length d.indices.length f2 set.metrics := by
    simp only [setup, e1, e2]
  rw [e]
  constructor
  · intro f ps h
    obtain ⟨a1, a2, a3⟩ := m1 f ps h
    refine ⟨⟨a1, ?_⟩, a2, a3⟩
    have := a3.apart
    rw [← tablesOf_fst d times]
    have hm : (tablesOf d times ++ set.metrics.map (values (blank times.length d.indices.length))).map Prod.fst =
        (tablesOf d times).map Prod.fst ++ set.metrics.map Metric.path := by
      rw [List.map_append, List.map_map]; rfl
    rw [← hm, List.pairwise_map]
    exact this
  · intro h
    exact m2 h.names (by rw [tablesOf_fst]; exact h.clear)

/-! ## Filling -/

/-- The file with another object at a path. -/
def upd (p : Path) (o : Obj) (f : File) : File := f.map fun x => if x.1 = p then (p, o) else x

theorem upd_keys (p : Path) (o : Obj) (f : File) : (upd p o f).map Prod.fst = f.map Prod.fst := by
  rw [upd, List.map_map]
  apply List.map_congr_left
  intro x _
  by_cases h : x.1 = p
  · simp [h]
  · simp [h]

theorem upd_absent {p : Path} {o : Obj} {f : File} (h : p ∉ f.map Prod.fst) : upd p o f = f := by
  rw [upd]
  conv_rhs => rw [← List.map_id f]
  apply List.map_congr_left
  intro x hx
  rw [if_neg]
  · rfl
  · rintro rfl; exact h (List.mem_map_of_mem hx)

theorem change_spec {p : Path} {o : Obj} {g : Obj → Except Err Obj} {f : File} (hk : (f.map Prod.fst).Nodup) (hm : (p, o) ∈ f)
    {o' : Obj} (hg : g o = .ok o') : change p g f = .ok (upd p o' f) := by
  induction f with
  | nil => cases hm
  | cons x f ih =>
    obtain ⟨q, y⟩ := x
    rw [List.map_cons, List.nodup_cons] at hk
    by_cases hq : q = p
    · subst hq
      have : y = o := by
        rcases List.mem_cons.mp hm with h | h
        · exact (Prod.mk.inj h).2.symm
        · exact (hk.1 (List.mem_map.mpr ⟨_, h, rfl⟩)).elim
      subst this
      have hu : upd q o' f = f := upd_absent hk.1
      rw [change, if_pos rfl, hg]
      simp only [upd, List.map_cons, if_true] at hu ⊢
      rw [hu]
    · have hm' : (p, o) ∈ f := by
        rcases List.mem_cons.mp hm with h | h
        · exact (hq (Prod.mk.inj h).1.symm).elim
        · exact h
      rw [change, if_neg hq, ih hk.2 hm']
      simp only [upd, List.map_cons, if_neg hq]

theorem mem_upd {p : Path} {o o' : Obj} {f : File} (hm : (p, o) ∈ f) (q : Path) (x : Obj) :
    (q, x) ∈ upd p o' f ↔ (q ≠ p ∧ (q, x) ∈ f) ∨ (q = p ∧ x = o') := by
  rw [upd, List.mem_map]
  constructor
  · rintro ⟨⟨r, y⟩, h1, h2⟩
    by_cases h : r = p
    · rw [if_pos h] at h2
      cases h2
      exact .inr ⟨rfl, rfl⟩
    · rw [if_neg h] at h2
      cases h2
      exact .inl ⟨h, h1⟩
  · rintro (⟨h1, h2⟩ | ⟨rfl, rfl⟩)
    · exact ⟨(q, x), h2, if_neg h1⟩
    · exact ⟨(q, o), hm, if_pos rfl⟩

/-- One data set is written. -/
theorem Look.change {A B : List (Path × Obj)} {p : Path} {o o' : Obj} {f : File} (h : Look (A ++ (p, o) :: B) f)
    {g : Obj → Except Err Obj} (hg : g o = .ok o') (ho : o' ≠ .group) :
    ∃ f', Hdf.change p g f = .ok f' ∧ Look (A ++ (p, o') :: B) f' := by
  have hm : (p, o) ∈ f := (h.mem _ _).mpr (.inl (by simp))
  have hap := h.apart
  rw [List.pairwise_append, List.pairwise_cons] at hap
  obtain ⟨ha, ⟨hb1, hb2⟩, hab⟩ := hap
  have hA : ∀ x ∈ A, Clear x.1 p := fun x hx => hab x hx _ List.mem_cons_self
  have hself : ¬ Clear p p := fun c => c.1 (List.prefix_refl _)
  refine ⟨upd p o' f, change_spec h.sound.keys hm hg, ⟨?_, ?_⟩, ?_, ?_, ?_⟩
  · rw [upd_keys]; exact h.sound.keys
  · rw [upd_keys]; exact h.sound.root
  · intro x hx
    rcases List.mem_append.mp hx with hx | hx
    · exact h.solid x (by simp [hx])
    · rcases List.mem_cons.mp hx with rfl | hx
      · exact ⟨(h.solid (p, o) (by simp)).1, ho⟩
      · exact h.solid x (by simp [hx])
  · rw [List.pairwise_append, List.pairwise_cons]
    refine ⟨ha, ⟨hb1, hb2⟩, ?_⟩
    intro x hx y hy
    rcases List.mem_cons.mp hy with rfl | hy
    · exact hA x hx
    · exact hab x hx y (List.mem_cons_of_mem _ hy)
  · intro q x
    rw [mem_upd hm, h.mem]
    simp only [List.mem_append, List.mem_cons, Prod.mk.injEq]
    have hex : (∃ d, (d ∈ A ∨ d = (p, o) ∨ d ∈ B) ∧ q <+: d.1 ∧ q ≠ d.1) ↔ (∃ d, (d ∈ A ∨ d = (p, o') ∨ d ∈ B) ∧ q <+: d.1 ∧ q ≠ d.1) := by
      constructor
      · rintro ⟨d, h1 | rfl | h1, h2⟩
        · exact ⟨d, .inl h1, h2⟩
        · exact ⟨(p, o'), .inr (.inl rfl), h2⟩
        · exact ⟨d, .inr (.inr h1), h2⟩
      · rintro ⟨d, h1 | rfl | h1, h2⟩
        · exact ⟨d, .inl h1, h2⟩
        · exact ⟨(p, o), .inr (.inl rfl), h2⟩
        · exact ⟨d, .inr (.inr h1), h2⟩
    constructor
    · rintro (⟨h1, (h2 | ⟨rfl, rfl⟩ | h2) | ⟨h2, h3, h4⟩⟩ | ⟨rfl, rfl⟩)
      · exact .inl (.inl h2)
      · exact absurd rfl h1
      · exact .inl (.inr (.inr h2))
      · exact .inr ⟨h2, h3, hex.mp h4⟩
      · exact .inl (.inr (.inl ⟨rfl, rfl⟩))
    · rintro ((h2 | ⟨rfl, rfl⟩ | h2) | ⟨h2, h3, h4⟩)
      · refine .inl ⟨?_, .inl (.inl h2)⟩
        rintro rfl
        exact hself (hA _ h2)
      · exact .inr ⟨rfl, rfl⟩
      · refine .inl ⟨?_, .inl (.inr (.inr h2))⟩
        rintro rfl
        exact hself (hb1 _ h2)
      · refine .inl ⟨?_, .inr ⟨h2, h3, hex.mpr h4⟩⟩
        rintro rfl
        obtain ⟨d, h5 | rfl | h5, h6, h7⟩ := h4
        · exact (hA _ h5).2 h6
        · exact h7 rfl
        · exact (hb1 _ h5).1 h6

/-- The rows after one more step. -/
def filled (index : Nat) (states : List σ) (R : Metric σ → List (List ℚ)) : Metric σ → List (List ℚ) :=
  fun m => (R m).set index (states.map m.get)

theorem saveLoop_spec (index : Nat) (states : List σ) (R : Metric σ → List (List ℚ)) (ms : List (Metric σ)) {A : List (Path × Obj)} {f : File}
    (h : Look (A ++ ms.map (values R)) f) (hr : ∀ m, ∃ row, (R m)[index]? = some row ∧ row.length = states.length) :
    ∃ f', saveLoop index states f ((ms.map Metric.path).zip ms) = .ok f' ∧ Look (A ++ ms.map (values (filled index states R))) f' := by
  induction ms generalizing A f with
  | nil => exact ⟨f, rfl, h⟩
  | cons m ms ih =>
    obtain ⟨row, h1, h2⟩ := hr m
    rw [List.map_cons] at h
    obtain ⟨f1, e1, l1⟩ := Look.change (g := writeRow index (states.map m.get)) h
      (o' := .values (filled index states R m) m.ty m.subType) (by
        simp only [writeRow, h1, List.length_map, h2, if_true, filled]) (by simp)
    obtain ⟨f2, e2, l2⟩ := ih (A := A ++ [values (filled index states R) m]) (f := f1) (by
      simpa [values] using l1)
    exact ⟨f2, by simp only [List.map_cons, List.zip_cons_cons, saveLoop, e1, e2], by simpa using l2⟩

/-- The rows of the steps that are done, and zeros. -/
def upTo (done : List (Timestep × List σ)) (rest scenarios : Nat) : Metric σ → List (List ℚ) :=
  fun m => (done.map fun x => x.2.map m.get) ++ List.replicate rest (List.replicate scenarios 0)

theorem filled_upTo (done : List (Timestep × List σ)) (rest scenarios : Nat) (t : Timestep) (states : List σ) :
    filled done.length states (upTo done (rest + 1) scenarios) = upTo (done ++ [(t, states)]) rest scenarios := by
  funext m
  simp [filled, upTo, List.replicate_succ]

theorem steps_spec (d : Scenario.Domain) (set : Set σ) (T : List (Path × Obj)) (rest done : List (Timestep × List σ)) {f : File}
    (hreg : Regular d (done ++ rest)) (h : Look (T ++ set.metrics.map (values (upTo done rest.length d.indices.length))) f) :
    ∃ f', steps d set (set.metrics.map Metric.path) f rest = .ok f' ∧
      Look (T ++ set.metrics.map (values (upTo (done ++ rest) 0 d.indices.length))) f' := by
  induction rest generalizing done f with
  | nil => exact ⟨f, rfl, by simpa using h⟩
  | cons x rest ih =>
    obtain ⟨t, states⟩ := x
    obtain ⟨h1, h2⟩ := hreg done.length (t, states) (by simp)
    simp only at h1 h2
    obtain ⟨f1, e1, l1⟩ := saveLoop_spec done.length (states.take d.indices.length) _ set.metrics h (by
      intro m
      refine ⟨List.replicate d.indices.length 0, ?_, by simp [h2]⟩
      simp [upTo, List.replicate_succ])
    rw [List.take_of_length_le (by omega)] at e1 l1
    rw [List.length_cons, filled_upTo done rest.length _ t states] at l1
    obtain ⟨f2, e2, l2⟩ := ih (done ++ [(t, states)]) (by simpa using hreg) l1
    refine ⟨f2, ?_, by simpa using l2⟩
    rw [steps, save, h1, List.take_of_length_le (by omega), e1]
    exact e2

/-- A run gives a file if the names fit, and then this one. -/
theorem run_spec (d : Scenario.Domain) (set : Set σ) (history : List (Timestep × List σ)) (hreg : Regular d history) :
    (set.Fits → ∃ f, run d set history = .ok f) ∧
    (∀ f, run d set history = .ok f → set.Fits ∧
      Look (tablesOf d (history.map Prod.fst) ++ set.metrics.map (values fun m => history.map fun x => x.2.map m.get)) f) := by
  obtain ⟨s1, s2⟩ := setup_spec d (history.map Prod.fst) set
  have key : ∀ f ps, setup d (history.map Prod.fst) set = .ok (f, ps) → set.Fits ∧ ∃ f', run d set history = .ok f' ∧
      Look (tablesOf d (history.map Prod.fst) ++ set.metrics.map (values fun m => history.map fun x => x.2.map m.get)) f' := by
    intro f ps h
    obtain ⟨a1, rfl, a3⟩ := s1 f ps h
    obtain ⟨f', e, l⟩ := steps_spec d set (tablesOf d (history.map Prod.fst)) history [] (f := f) (by simpa using hreg) (by
      have : (upTo [] history.length d.indices.length : Metric σ → _) = blank (history.map Prod.fst).length d.indices.length := by
        funext m; simp [upTo, blank]
      rw [this]; exact a3)
    refine ⟨a1, f', by rw [run, h]; exact e, ?_⟩
    have : (upTo ([] ++ history) 0 d.indices.length : Metric σ → _) = fun m => history.map fun x => x.2.map m.get := by
      funext m; simp [upTo]
    rw [this] at l; exact l
  constructor
  · intro hf
    obtain ⟨⟨f, ps⟩, h⟩ := s2 hf
    obtain ⟨-, f', e, -⟩ := key f ps h
    exact ⟨f', e⟩
  · intro f h
    rcases hs : setup d (history.map Prod.fst) set with e | ⟨f1, ps⟩
    · rw [run, hs] at h; cases h
    · obtain ⟨a, f', e, l⟩ := key f1 ps hs
      rw [e] at h
      cases h
      exact ⟨a, l⟩

end Verif.Hdf
