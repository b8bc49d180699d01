import Verif.Lemmas.HdfRun
import Verif.Props.Scenario

/-!
# C98: HDF5 files
-/

namespace Verif.Hdf

open Verif.Time

variable {σ : Type}

theorem Look.reads {D : List (Path × Obj)} {f : File} (h : Look D f) {p : Path} {o : Obj} (hm : (p, o) ∈ D) : Reads f p o :=
  ⟨(h.mem _ _).mpr (.inl hm), fun _ h' => h.sound.unique h' ((h.mem _ _).mpr (.inl hm))⟩

theorem stamp_tells (t : Timestep) : Stamp.Tells (Stamp.of t) t := by
  refine ⟨rfl, rfl, rfl, rfl, Nat.mod_lt _ (by omega), Nat.mod_lt _ (by omega), ?_⟩
  simp only [Stamp.of]
  omega

/-- C98: if a run with an HDF5 output completes, the file has for every metric of the set a data set at the name and attribute
of the metric, with its type, in which the value of time step `t` and scenario `s` is at row `t` and column `s`; besides them
the table of the time steps with their dates and times, and the tables of the scenario groups and scenarios. There is nothing
else in it. -/
theorem C98_file (d : Scenario.Domain) (set : Set σ) (history : List (Timestep × List σ)) (hreg : Regular d history) (f : File)
    (h : run d set history = .ok f) : FileOf d set history f := by
  obtain ⟨-, l⟩ := (run_spec d set history hreg).2 f h
  refine ⟨⟨history.map fun x => Stamp.of x.1, l.reads ?_, ?_⟩, l.reads ?_, l.reads ?_, ?_, ?_⟩
  · simp [tablesOf, Function.comp_def]
  · rw [List.forall₂_map_left_iff]
    exact List.forall₂_same.mpr fun x _ => stamp_tells x.1
  · simp [tablesOf, groupRow]
  · simp [tablesOf, scenarioRow]
  · intro m hm
    exact l.reads (List.mem_append_right _ (List.mem_map.mpr ⟨m, hm, rfl⟩))
  · intro p o hm
    rcases (l.mem _ _).mp hm with hm | ⟨hm, -⟩
    · rcases List.mem_append.mp hm with hm | hm
      · right; left
        rw [← tablesOf_fst d (history.map Prod.fst)]
        exact List.mem_map.mpr ⟨_, hm, rfl⟩
      · obtain ⟨m, hm, e⟩ := List.mem_map.mp hm
        exact .inr (.inr ⟨m, hm, (Prod.mk.inj e).1.symm⟩)
    · exact .inl hm

/-- C98: a run with an HDF5 output is accepted exactly if no path of a table or metric leads to or through another one. -/
theorem C98_accepts (d : Scenario.Domain) (set : Set σ) (history : List (Timestep × List σ)) (hreg : Regular d history) :
    (∃ f, run d set history = .ok f) ↔ set.Fits :=
  ⟨fun ⟨f, h⟩ => ((run_spec d set history hreg).2 f h).1, (run_spec d set history hreg).1⟩

/-- A name without special meaning in a path. -/
def Plain (s : String) : Prop := s ≠ "" ∧ s ≠ "." ∧ '/' ∉ s.toList

theorem split_plain (cs : List Char) (h : '/' ∉ cs) : split cs = [cs] := by
  induction cs with
  | nil => rfl
  | cons c cs ih =>
    rw [List.mem_cons, not_or] at h
    rw [split, ih h.2]
    simp only
    rw [if_neg (fun e => h.1 e.symm)]

theorem first_slash {c : Char} {cs : List Char} (h : c ∈ cs) : ∃ a b, cs = a ++ c :: b ∧ c ∉ a := by
  induction cs with
  | nil => cases h
  | cons d cs ih =>
    by_cases hd : d = c
    · exact ⟨[], cs, by rw [hd]; rfl, by simp⟩
    · obtain ⟨a, b, rfl, ha⟩ := ih (by rcases List.mem_cons.1 h with e | e; exact absurd e.symm hd; exact e)
      exact ⟨d :: a, b, rfl, by rw [List.mem_cons, not_or]; exact ⟨fun e => hd e.symm, ha⟩⟩

theorem split_append (part rest : List Char) (h : '/' ∉ part) : split (part ++ '/' :: rest) = part :: split rest := by
  induction part with
  | nil =>
    rw [List.nil_append, split]
    cases hs : split rest with
    | nil => rfl
    | cons l ls => simp
  | cons c cs ih =>
    rw [List.mem_cons, not_or] at h
    rw [List.cons_append, split, ih h.2]
    simp only
    rw [if_neg (fun e => h.1 e.symm)]

/-- **C98 (names).** A name with slashes is a way through groups; empty parts and dots do not count. -/
theorem C98_links (name : String) (p : Path) : Follows name.toList p ↔ links name = p := by
  have hlinks : links name = (split name.toList).filter fun l => l ≠ [] ∧ l ≠ ['.'] := rfl
  rw [hlinks]
  generalize name.toList = cs
  constructor
  · intro h
    induction h with
    | last part h h' => rw [split_plain _ h]; simp [h'.1, h'.2]
    | stay part h =>
      rw [split_plain _ (by rcases h with rfl | rfl <;> decide)]
      rcases h with rfl | rfl <;> simp
    | part part rest p h h' hr ih => rw [split_append _ _ h, List.filter_cons, if_pos (by simp [h'.1, h'.2]), ih]
    | skip part rest p h hr ih =>
      rw [split_append _ _ (by rcases h with rfl | rfl <;> decide), List.filter_cons, if_neg (by rcases h with rfl | rfl <;> simp), ih]
  · rintro rfl
    suffices h : ∀ n, ∀ cs : List Char, cs.length < n → Follows cs ((split cs).filter fun l => l ≠ [] ∧ l ≠ ['.']) from h _ cs (Nat.lt_succ_self _)
    intro n
    induction n with
    | zero => intro cs h; omega
    | succ n ih =>
      intro cs hl
      by_cases hs : '/' ∈ cs
      · obtain ⟨part, rest, rfl, hp⟩ := first_slash hs
        rw [split_append _ _ hp, List.filter_cons]
        have hr := ih rest (by simp at hl; omega)
        split_ifs with hc
        · exact .part _ _ _ hp (by simpa using hc) hr
        · exact .skip _ _ _ (by by_cases h1 : part = []; exact .inl h1; exact .inr (by simpa [h1] using hc)) hr
      · rw [split_plain _ hs, List.filter_cons, List.filter_nil]
        split_ifs with hc
        · exact .last _ hs (by simpa using hc)
        · exact .stay _ (by by_cases h1 : cs = []; exact .inl h1; exact .inr (by simpa [h1] using hc))

theorem links_plain {s : String} (h : Plain s) : links s = [s.toList] := by
  have h1 : s.toList ≠ [] := fun e => h.1 (by rw [← String.toList_inj]; simpa using e)
  have h2 : s.toList ≠ ['.'] := fun e => h.2.1 (by rw [← String.toList_inj]; simpa using e)
  rw [links, split_plain _ h.2.2]
  simp [h1, h2]

theorem clear_two (a b c d : List Char) : Clear [a, b] [c, d] ↔ (a, b) ≠ (c, d) := by
  simp only [Clear, List.cons_prefix_cons, List.prefix_refl, and_true, ne_eq, Prod.mk.injEq]
  constructor
  · exact fun h => h.1
  · exact fun h => ⟨h, fun e => h ⟨e.1.symm, e.2.symm⟩⟩

theorem clear_one (a c d : List Char) : Clear [a] [c, d] ↔ a ≠ c := by
  simp only [Clear, List.cons_prefix_cons, List.nil_prefix, and_true]
  constructor
  · exact fun h => h.1
  · exact fun h => ⟨h, fun e => by simpa using e.2⟩

/-- C98: if the names and attributes of metrics have no special characters, a run is accepted exactly if no two metrics of the
set have the same name and attribute, none is called `time`, and none has the path of a table of scenarios; and the values
are in the data set called as the attribute, in the group called as the metric. -/
theorem C98_plain (d : Scenario.Domain) (set : Set σ) (history : List (Timestep × List σ)) (hreg : Regular d history)
    (hp : ∀ m ∈ set.metrics, Plain m.name ∧ Plain m.attr) :
    ((∃ f, run d set history = .ok f) ↔ (set.metrics.map fun m => (m.name, m.attr)).Nodup ∧
      ∀ m ∈ set.metrics, m.name ≠ "time" ∧ (m.name, m.attr) ≠ ("scenarios", "groups") ∧ (m.name, m.attr) ≠ ("scenarios", "indices")) ∧
    ∀ f, run d set history = .ok f → ∀ m ∈ set.metrics,
      Reads f [m.name.toList, m.attr.toList] (.values (history.map fun x => x.2.map m.get) m.ty m.subType) := by
  have hpath : ∀ m ∈ set.metrics, m.path = [m.name.toList, m.attr.toList] := by
    intro m hm
    rw [Metric.path, links_plain (hp m hm).1, links_plain (hp m hm).2]; rfl
  refine ⟨?_, fun f h m hm => by rw [← hpath m hm]; exact (C98_file d set history hreg f h).values m hm⟩
  rw [C98_accepts d set history hreg]
  have pair : ∀ a b c e : String, (a.toList, b.toList) ≠ (c.toList, e.toList) ↔ (a, b) ≠ (c, e) := by
    intro a b c e
    simp [String.toList_inj]
  constructor
  · intro h
    have hc := h.clear
    rw [List.pairwise_append] at hc
    obtain ⟨-, h2, h3⟩ := hc
    refine ⟨?_, ?_⟩
    · rw [List.pairwise_map] at h2
      rw [List.Nodup, List.pairwise_map]
      refine h2.imp_of_mem ?_
      intro a b ha hb hab
      rw [hpath a ha, hpath b hb, clear_two] at hab
      exact (pair _ _ _ _).mp hab
    · intro m hm
      have hm' := List.mem_map_of_mem (f := Metric.path) hm
      refine ⟨?_, ?_, ?_⟩
      · have := h3 ["time".toList] (by simp [tables]) _ hm'
        rw [hpath m hm, clear_one] at this
        exact fun e => this (by rw [e])
      · have := h3 ["scenarios".toList, "groups".toList] (by simp [tables]) _ hm'
        rw [hpath m hm, clear_two, pair] at this
        exact fun e => this e.symm
      · have := h3 ["scenarios".toList, "indices".toList] (by simp [tables]) _ hm'
        rw [hpath m hm, clear_two, pair] at this
        exact fun e => this e.symm
  · rintro ⟨h1, h2⟩
    refine ⟨fun m hm => ⟨(hp m hm).1.1, by rw [links_plain (hp m hm).2]; simp⟩, ?_⟩
    rw [List.pairwise_append]
    refine ⟨by decide +kernel, ?_, ?_⟩
    · rw [List.Nodup, List.pairwise_map] at h1
      rw [List.pairwise_map]
      refine h1.imp_of_mem ?_
      intro a b ha hb hab
      rw [hpath a ha, hpath b hb, clear_two]
      exact (pair _ _ _ _).mpr hab
    · intro p hpt q hq
      obtain ⟨m, hm, rfl⟩ := List.mem_map.mp hq
      obtain ⟨g1, g2, g3⟩ := h2 m hm
      rw [hpath m hm]
      simp only [tables, List.mem_cons, List.not_mem_nil, or_false] at hpt
      rcases hpt with rfl | rfl | rfl
      · rw [clear_two, pair]; exact fun e => g2 e.symm
      · rw [clear_two, pair]; exact fun e => g3 e.symm
      · rw [clear_one]; exact fun e => g1 (String.toList_inj.mp e.symm)

/-- C98: without subsets and combinations, the tables say which scenario a column is: the indices in row `j` of the table of
scenarios are those of the combination at place `j` of the product of the groups with the sizes of the table of groups.
Missing: subsets, for which this is refuted (`C98_subset_refuted`). -/
theorem C98_columns_partial (groups : List Scenario.Group) (hne : groups ≠ []) (hwf : ∀ g ∈ groups, g.WF)
    (hns : ∀ g ∈ groups, g.subset = none) (d : Scenario.Domain) (hd : (Scenario.DomainBuilder.mk groups none).build = .ok d)
    (set : Set σ) (history : List (Timestep × List σ)) (hreg : Regular d history) (f : File) (h : run d set history = .ok f) :
    ∃ gs ss, Reads f ["scenarios".toList, "groups".toList] (.groups gs) ∧ Reads f ["scenarios".toList, "indices".toList] (.scenarios ss) ∧
      gs = groups.map (fun g => (g.name, g.size)) ∧ ss.map (fun r => r.1) = List.range ss.length ∧
      ss.map (fun r => r.2.1) = Scenario.cart (gs.map Prod.snd) := by
  have hF := C98_file d set history hreg f h
  obtain ⟨d', e, h1, h2, -⟩ := Scenario.C04_full_domain groups hne hwf hns
  rw [hd] at e
  cases e
  have hg : d.groups = groups := by
    cases groups with
    | nil => exact absurd rfl hne
    | cons g gs =>
      simp only [Scenario.DomainBuilder.build, Scenario.buildSubset] at hd
      split at hd
      · cases hd
      · cases hd; rfl
  refine ⟨_, _, hF.groups, hF.scenarios, by rw [hg], ?_, ?_⟩
  · rw [List.map_map, List.length_map]
    have : d.indices.length = Scenario.prod (groups.map (·.size)) := by
      rw [← Scenario.length_cart, ← h1, List.length_map]
    rw [this, ← h2]; rfl
  · rw [List.map_map, hg, List.map_map]
    exact h1

end Verif.Hdf
