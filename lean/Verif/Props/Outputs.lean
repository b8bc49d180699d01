import Verif.Lemmas.OutputFiles
import Verif.Lemmas.Calendar
import Mathlib.Tactic.Linarith
import Mathlib.Tactic.FieldSimp

/-!
# C73: what metric sets and recorders write
-/

namespace Verif.Agg

open Verif.Calendar Verif.Time

variable {σ : Type}

/-- C73. Which periods are recorded, and whether aggregation panics, depends on the dates of the values and not on the
numbers. -/
theorem C73_dates (levels : List Level) {xs ys : List PeriodValue} (h : List.Forall₂ Same xs ys) :
    Option.Rel (List.Forall₂ Same) (Agg.run levels xs) (Agg.run levels ys) := by
  rw [yields_run, yields_run]
  have k := yields_same levels h (sameStates_refl (setup levels))
  revert k
  generalize yields levels (setup levels) xs = a
  generalize yields levels (setup levels) ys = b
  intro k
  cases k with
  | none => exact .none
  | some k =>
    refine .some ?_
    induction k with
    | nil => exact .nil
    | cons h _ ih =>
      cases h with
      | none => exact ih
      | some h => exact .cons h ih

/-- C73. A memory recorder. For every scenario and metric, the column of the saved data is exactly what is to be recorded of
the series of that metric in that scenario; a metric set never yields values for some of its metrics only. -/
theorem C73_memory [Inhabited σ] (sets : List (MetricSet σ)) (scenarios : List ScenarioName) (steps : List (Step σ))
    (hI : ∀ t ∈ steps, t.states.length = scenarios.length) (hacc : Accepts sets steps) {idx : Nat} {m : MetricSet σ}
    (hm : sets[idx]? = some m) (hne : m.metrics ≠ []) :
    ∃ data, memoryRun sets scenarios idx steps = .ok data ∧ data.length = scenarios.length ∧
      ∀ (i : Nat) (rows : List Row), data[i]? = some rows → (∀ row ∈ rows, row.values.length = m.metrics.length) ∧
        ∀ (j : Nat) (x : OutMetric σ), m.metrics[j]? = some x →
          recorded m (series x i steps) = some (rows.filterMap fun row => row.values[j]?.map fun v =>
            { start := row.start, duration := row.duration, value := v }) := by
  obtain ⟨tr, c, hc, hj, hrec⟩ := run_frames sets scenarios steps hI hacc
  have hmem := List.mem_of_getElem? hm
  refine ⟨(List.range scenarios.length).map fun i => rowsOf (tr i m), ?_, by simp, ?_⟩
  · unfold memoryRun
    rw [hrec, map_const_range, writes_memory hm]
    · simp
    · intro i hi
      obtain ⟨r, _, h2⟩ := hj i (List.mem_range.mp hi) m hmem hne
      rw [joined_length h2, yieldsOf_length (hc m hmem)]
      simp [dates]
    · intro i hi
      obtain ⟨r, _, h2⟩ := hj i (List.mem_range.mp hi) m hmem hne
      exact (joined_rowsOf hne h2).1
  · intro i rows hrows
    have hi : i < scenarios.length := by
      by_contra h
      rw [List.getElem?_eq_none (by simp; omega)] at hrows
      cases hrows
    rw [List.getElem?_map, List.getElem?_range hi] at hrows
    simp only [Option.map_some, Option.some.injEq] at hrows
    subst hrows
    obtain ⟨r, h1, h2⟩ := hj i hi m hmem hne
    obtain ⟨_, h4, h5⟩ := joined_rowsOf hne h2
    refine ⟨h4, fun j x hx => ?_⟩
    rw [h5 j x hx, recorded_yields, h1 x (List.mem_of_getElem? hx)]
    rfl

/-- C73. The data frame of a memory recorder: the records of a scenario and a metric are, in order, what is to be recorded of
the metric in that scenario. The column `metric_set` holds the name of the recorder. -/
theorem C73_frame [Inhabited σ] (sets : List (MetricSet σ)) (scenarios : List ScenarioName) (steps : List (Step σ))
    (hI : ∀ t ∈ steps, t.states.length = scenarios.length) (hacc : Accepts sets steps) {idx : Nat} {m : MetricSet σ}
    (hm : sets[idx]? = some m) (hnd : (m.metrics.map fun x => (x.name, x.attr)).Nodup)
    (hid : (scenarios.map (·.id)).Nodup) (recorder : String) {i : Nat} {s : ScenarioName} (hs : scenarios[i]? = some s) {x : OutMetric σ}
    (hx : x ∈ m.metrics) :
    ∃ data out, memoryRun sets scenarios idx steps = .ok data ∧ recorded m (series x i steps) = some out ∧
      (longRecords recorder m.metrics scenarios data).filter (isOf s.id recorder x.name x.attr) =
        out.map fun v => recordOf s recorder x.name x.attr v v.value := by
  have hne : m.metrics ≠ [] := List.ne_nil_of_mem hx
  obtain ⟨data, h1, h2, h3⟩ := C73_memory sets scenarios steps hI hacc hm hne
  have hi : i < scenarios.length := by
    by_contra h
    rw [List.getElem?_eq_none (by omega)] at hs
    cases hs
  obtain ⟨j, hj, hxj⟩ := List.getElem_of_mem hx
  have hxj' : m.metrics[j]? = some x := by rw [List.getElem?_eq_getElem hj, hxj]
  obtain ⟨h4, h5⟩ := h3 i data[i] (List.getElem?_eq_getElem (by omega))
  refine ⟨data, _, h1, h5 j x hxj', ?_⟩
  unfold longRecords
  have hmemz : (s, data[i]) ∈ scenarios.zip data := by
    refine List.mem_iff_getElem?.mpr ⟨i, ?_⟩
    rw [List.getElem?_zip_eq_some]
    exact ⟨hs, List.getElem?_eq_getElem (by omega)⟩
  have hidz : ((scenarios.zip data).map fun y => y.1.id).Nodup := by
    have : (scenarios.zip data).map (fun y => y.1.id) = scenarios.map (·.id) := by
      rw [show (fun y : ScenarioName × List Row => y.1.id) = (fun z : ScenarioName => z.id) ∘ Prod.fst from rfl, ← List.map_map,
        List.map_fst_zip (by omega)]
    rw [this]; exact hid
  rw [filter_flatMap_key _ (fun y => y.1.id) _ (s, data[i]) _ hidz hmemz]
  · revert h4
    generalize data[i]'(by omega) = rows
    intro h4
    induction rows with
    | nil => rfl
    | cons row rows ih =>
      rw [List.flatMap_cons, List.filter_append]
      have ih' := ih fun r hr => h4 r (List.mem_cons_of_mem _ hr)
      simp only at ih'
      rw [ih']
      have hlen := h4 row List.mem_cons_self
      have hv : ∃ v, row.values[j]? = some v := ⟨row.values[j]'(by omega), List.getElem?_eq_getElem (by omega)⟩
      obtain ⟨v, hv⟩ := hv
      have hone : (rowRecords recorder m.metrics s row).filter (isOf s.id recorder x.name x.attr) =
          [recordOf s recorder x.name x.attr ⟨row.start, row.duration, v⟩ v] := by
        have hz : rowRecords recorder m.metrics s row = (row.values.zip m.metrics).flatMap fun y =>
            [recordOf s recorder y.2.name y.2.attr ⟨row.start, row.duration, y.1⟩ y.1] := by
          unfold rowRecords
          generalize row.values = vs
          generalize m.metrics = ms
          induction vs generalizing ms with
          | nil => rfl
          | cons v vs ih =>
            cases ms with
            | nil => rfl
            | cons y ms =>
              simp only [List.map_cons, List.zip_cons_cons, List.flatMap_cons]
              rw [ih ms]; rfl
        have hkey : ((row.values.zip m.metrics).map fun y => (y.2.name, y.2.attr)).Nodup := by
          have : (row.values.zip m.metrics).map (fun y => (y.2.name, y.2.attr)) = m.metrics.map fun y => (y.name, y.attr) := by
            rw [show (fun y : ℚ × OutMetric σ => (y.2.name, y.2.attr)) = (fun z : OutMetric σ => (z.name, z.attr)) ∘ Prod.snd from rfl,
              ← List.map_map, List.map_snd_zip (by omega)]
          rw [this]; exact hnd
        have hmem : (v, x) ∈ row.values.zip m.metrics := by
          refine List.mem_iff_getElem?.mpr ⟨j, ?_⟩
          rw [List.getElem?_zip_eq_some]
          exact ⟨hv, hxj'⟩
        rw [hz, filter_flatMap_key _ (fun y => (y.2.name, y.2.attr)) _ (v, x) _ hkey hmem]
        · simp [isOf, recordOf]
        · intro y _ hy
          simp only [ne_eq, Prod.mk.injEq, not_and] at hy
          simp only [List.filter_cons, List.filter_nil, isOf, recordOf]
          by_cases h : y.2.name = x.name
          · simp [hy h]
          · simp [h]
      rw [hone]
      simp [hv]
  · intro y _ hy
    rw [List.filter_flatMap, List.flatMap_eq_nil_iff]
    intro row _
    rw [List.filter_eq_nil_iff]
    intro r hr
    simp only [rowRecords, List.mem_map] at hr
    obtain ⟨z, _, rfl⟩ := hr
    simp [isOf, hy]

/-- C73. The wide file: four header rows and a row for every period. The column of a scenario and a metric is headed by
its name, its attribute, the simulation id and the label, and holds what is to be recorded of the metric in that scenario,
to two decimal places. -/
theorem C73_wide [Inhabited σ] (sets : List (MetricSet σ)) (scenarios : List ScenarioName) (steps : List (Step σ))
    (hI : ∀ t ∈ steps, t.states.length = scenarios.length) (hacc : Accepts sets steps) {idx : Nat} {m : MetricSet σ}
    (hm : sets[idx]? = some m) {i : Nat} {s : ScenarioName} (hs : scenarios[i]? = some s) {j : Nat} {x : OutMetric σ}
    (hx : m.metrics[j]? = some x) :
    ∃ (out : List PeriodValue) (names attrs ids labels : List String) (rows : List (DateTime × List ℚ)),
      wideRun sets scenarios idx steps =
        .ok ([.header names, .header attrs, .header ids, .header labels] ++ rows.map fun row => .row row.1 row.2) ∧
      recorded m (series x i steps) = some out ∧
      names[i * m.metrics.length + j + 1]? = some x.name ∧ attrs[i * m.metrics.length + j + 1]? = some x.attr ∧
      ids[i * m.metrics.length + j + 1]? = some (toString s.id) ∧ labels[i * m.metrics.length + j + 1]? = some s.label ∧
      (∀ row ∈ rows, row.2.length = scenarios.length * m.metrics.length) ∧
      (rows.map fun row => row.2[i * m.metrics.length + j]?.map fun v => (row.1, v)) =
        out.map fun v => some (v.start, hundredths v.value) := by
  have hne : m.metrics ≠ [] := List.ne_nil_of_mem (List.mem_of_getElem? hx)
  have hL : scenarios ≠ [] := List.ne_nil_of_mem (List.mem_of_getElem? hs)
  have hi : i < scenarios.length := by
    by_contra h
    rw [List.getElem?_eq_none (by omega)] at hs
    cases hs
  have hjlt : j < m.metrics.length := by
    by_contra h
    rw [List.getElem?_eq_none (by omega)] at hx
    cases hx
  obtain ⟨tr, c, hc, hj, hrec⟩ := run_frames sets scenarios steps hI hacc
  have hmem := List.mem_of_getElem? hm
  have hall : ∃ r : Nat → OutMetric σ → List (Option PeriodValue), ∀ i ∈ List.range scenarios.length,
      (∀ x ∈ m.metrics, yieldsOf m (series x i steps) = some (r i x)) ∧ Joined m.metrics (c m) (tr i m) (r i) := by
    refine ⟨fun i x => (yieldsOf m (series x i steps)).getD [], fun i hi => ?_⟩
    obtain ⟨r, h1, h2⟩ := hj i (List.mem_range.mp hi) m hmem hne
    refine ⟨fun x hx => by simp [h1 x hx], writes_wide.joined_congr h2 fun x hx => by simp [h1 x hx]⟩
  obtain ⟨r, hr⟩ := hall
  have hw : ∀ (f : ScenarioName → List String) (h : String), (∀ s ∈ scenarios, (f s).length = m.metrics.length) →
      (Line.header (h :: scenarios.flatMap f)).width = scenarios.length * m.metrics.length + 1 := by
    intro f h hf
    simp only [Line.width, List.length_cons, flatMap_length_const scenarios f _ hf]
  have hhead : writeHeaders (wideHeaders m.metrics scenarios) [] = .ok ((wideHeaders m.metrics scenarios).map Line.header) := by
    simp only [wideHeaders, writeHeaders, writeLine, List.cons_append, List.nil_append]
    rw [if_pos (by rw [hw _ _ (by simp), hw _ _ (by simp)])]
    simp only [List.cons_append, List.nil_append]
    rw [if_pos (by rw [hw _ _ (by simp), hw _ _ (by simp)])]
    simp only [List.cons_append, List.nil_append]
    rw [if_pos (by rw [hw _ _ (by simp), hw _ _ (by simp)])]
    simp
  have hrange : List.range scenarios.length ≠ [] := by
    simpa using hL
  have hwr := writes_wide (σ := σ) hm hne hrange (steps.length + 1) (c m) tr r
    ((wideHeaders m.metrics scenarios).map Line.header) (.header ("node" :: scenarios.flatMap fun _ => m.metrics.map (·.name)))
    (by simp [wideHeaders]) (by rw [hw _ _ (by simp), List.length_range])
    (by rw [yieldsOf_length (hc m hmem)]; simp [dates]) fun i hi => (hr i hi).2
  obtain ⟨hc1, hc2⟩ := wideRows_column (ms := m.metrics) (c m) (fun i => tr i m) r fun i hi => (hr i hi).2
  refine ⟨(r i x).filterMap id, "node" :: scenarios.flatMap fun _ => m.metrics.map (·.name),
    "attribute" :: scenarios.flatMap fun _ => m.metrics.map (·.attr),
    "simulation_id" :: scenarios.flatMap fun s => List.replicate m.metrics.length (toString s.id),
    "label" :: scenarios.flatMap fun s => List.replicate m.metrics.length s.label, wideRows (List.range scenarios.length) (c m) fun i => tr i m, ?_, ?_, ?_, ?_, ?_, ?_, ?_, ?_⟩
  · unfold wideRun
    simp only [hm, hhead]
    rw [hrec, hwr]
    rfl
  · rw [recorded_yields, (hr i (List.mem_range.mpr hi)).1 x (List.mem_of_getElem? hx)]
    rfl
  · rw [List.getElem?_cons_succ, flatMap_getElem? _ m.metrics.length scenarios (by simp) i j s hs hjlt]
    simp [hx]
  · rw [List.getElem?_cons_succ, flatMap_getElem? _ m.metrics.length scenarios (by simp) i j s hs hjlt]
    simp [hx]
  · rw [List.getElem?_cons_succ, flatMap_getElem? _ m.metrics.length scenarios (by simp) i j s hs hjlt]
    simp [hjlt]
  · rw [List.getElem?_cons_succ, flatMap_getElem? _ m.metrics.length scenarios (by simp) i j s hs hjlt]
    simp [hjlt]
  · intro row hrow
    rw [hc1 row hrow, List.length_range]
  · exact hc2 i j i x (List.getElem?_range hi) hx

/-- C73. The times of a record: it ends as long after its start as the period lasts. -/
theorem C73_period (s : ScenarioName) (set name attr : String) (v : PeriodValue) (value : ℚ) (hv : v.start.Valid)
    (hd : 0 ≤ v.duration) :
    (recordOf s set name attr v value).start = v.start ∧
      (recordOf s set name attr v value).stop.instant = v.start.instant + v.duration := by
  refine ⟨rfl, ?_⟩
  show (v.start.add v.duration.toNat).instant = _
  rw [instant_add hv, Int.toNat_of_nonneg hd]

/-- Thirty-six hours from noon of the last day of February of a leap year. -/
example : (recordOf ⟨0, "a"⟩ "set" "node" "flow" ⟨⟨⟨2020, 2, 29⟩, 12 * 3600000000000⟩, 36 * 3600000000000, 1⟩ 1).stop =
    ⟨⟨2020, 3, 2⟩, 0⟩ := by decide +kernel

/-- C73. The long file: the records of a scenario, a metric set and a metric are, in order, what is to be recorded of the
metric in that scenario, rounded if decimal places are asked for. -/
theorem C73_long [Inhabited σ] (sets : List (MetricSet σ)) (scenarios : List ScenarioName) (steps : List (Step σ))
    (hI : ∀ t ∈ steps, t.states.length = scenarios.length) (hacc : Accepts sets steps) (places : Option Nat) (indices : List Nat)
    (hk : ∀ k ∈ indices, sets[k]? ≠ none) (hnames : ((indices.filterMap (sets[·]?)).map (·.name)).Nodup)
    (hid : (scenarios.map (·.id)).Nodup) {idx : Nat} (hidx : idx ∈ indices) {m : MetricSet σ} (hm : sets[idx]? = some m)
    (hnd : (m.metrics.map fun x => (x.name, x.attr)).Nodup) {i : Nat} {s : ScenarioName} (hs : scenarios[i]? = some s)
    {x : OutMetric σ} (hx : x ∈ m.metrics) :
    ∃ file out, longRun sets scenarios places indices steps = .ok file ∧ recorded m (series x i steps) = some out ∧
      file.filter (isOf s.id m.name x.name x.attr) =
        out.map fun v => recordOf s m.name x.name x.attr v (toPlaces places v.value) := by
  have hne : m.metrics ≠ [] := List.ne_nil_of_mem hx
  have hi : i < scenarios.length := by
    by_contra h
    rw [List.getElem?_eq_none (by omega)] at hs
    cases hs
  obtain ⟨tr, c, hc, hj, hrec⟩ := run_frames sets scenarios steps hI hacc
  have hmem := List.mem_of_getElem? hm
  obtain ⟨r, h1, h2⟩ := hj i hi m hmem hne
  obtain ⟨new, h3, h4⟩ := writes_long (places := places) hk (scenarios := scenarios) (L := List.range scenarios.length) (steps.length + 1) tr []
  refine ⟨[] ++ new, (r x).filterMap id, ?_, ?_, ?_⟩
  · unfold longRun
    rw [hrec, h3]
  · rw [recorded_yields, h1 x hx]
    rfl
  · have hidz : ((scenarios.zip (List.range scenarios.length)).map fun y => y.1.id).Nodup := by
      have : (scenarios.zip (List.range scenarios.length)).map (fun y => y.1.id) = scenarios.map (·.id) := by
        rw [show (fun y : ScenarioName × Nat => y.1.id) = (fun z : ScenarioName => z.id) ∘ Prod.fst from rfl, ← List.map_map,
          List.map_fst_zip (by simp)]
      rw [this]; exact hid
    have hz : (s, i) ∈ scenarios.zip (List.range scenarios.length) := by
      refine List.mem_iff_getElem?.mpr ⟨i, ?_⟩
      rw [List.getElem?_zip_eq_some]
      exact ⟨hs, List.getElem?_range hi⟩
    have hsel : m ∈ indices.filterMap (sets[·]?) := List.mem_filterMap.mpr ⟨idx, hidx, hm⟩
    rw [List.nil_append]
    exact h4 (s, i) m x (c m) r hidz hnames hz hsel hx hnd (by rw [yieldsOf_length (hc m hmem)]; simp [dates]) h2

theorem roundAway_near (x : ℚ) : |(roundAway x : ℚ) - x| ≤ 1 / 2 := by
  unfold roundAway
  rw [abs_le]
  split
  · have h1 := Int.floor_le (x + 1 / 2)
    have h2 := Int.lt_floor_add_one (x + 1 / 2)
    constructor <;> linarith
  · have h1 := Int.floor_le (-x + 1 / 2)
    have h2 := Int.lt_floor_add_one (-x + 1 / 2)
    push_cast
    constructor <;> linarith

theorem roundEven_near (x : ℚ) : |(roundEven x : ℚ) - x| ≤ 1 / 2 := by
  unfold roundEven
  have h1 := Int.floor_le x
  have h2 := Int.lt_floor_add_one x
  rw [abs_le]
  split
  · constructor <;> linarith
  · rename_i h
    push Not at h
    split
    · push_cast; constructor <;> linarith
    · rename_i k
      push Not at k
      split
      · constructor <;> linarith
      · push_cast; constructor <;> linarith

/-- C73. A number in the long file is the value itself, or if decimal places are asked for a whole number of units of the last
place, at most half a unit away from the value. -/
theorem C73_places (d : Nat) (x : ℚ) : toPlaces none x = x ∧
    (∃ n : Int, toPlaces (some d) x = n / 10 ^ d) ∧ |toPlaces (some d) x - x| ≤ 1 / (2 * 10 ^ d) := by
  refine ⟨rfl, ⟨_, rfl⟩, ?_⟩
  have hp : (0 : ℚ) < 10 ^ d := by positivity
  have h := roundAway_near (x * 10 ^ d)
  have e : toPlaces (some d) x - x = ((roundAway (x * 10 ^ d) : ℚ) - x * 10 ^ d) / 10 ^ d := by
    simp only [toPlaces]; field_simp
  rw [e, abs_div, abs_of_pos hp, div_le_iff₀ hp]
  calc _ ≤ (1 : ℚ) / 2 := h
    _ = _ := by field_simp

/-- C73. A number in the wide file is at most half a hundredth away from the value. -/
theorem C73_hundredths (x : ℚ) : (∃ n : Int, hundredths x = n / 100) ∧ |hundredths x - x| ≤ 1 / 200 := by
  refine ⟨⟨_, rfl⟩, ?_⟩
  have h := roundEven_near (x * 100)
  have e : hundredths x - x = ((roundEven (x * 100) : ℚ) - x * 100) / 100 := by
    simp only [hundredths]; field_simp
  rw [e, abs_div, abs_of_pos (by norm_num : (0 : ℚ) < 100), div_le_iff₀ (by norm_num)]
  linarith

end Verif.Agg
