import Verif.Lemmas.OutputSets

/-!
# A run hands the current values of all scenarios and sets to the recorder, step by step
-/

namespace Verif.Agg

open Verif.Calendar Verif.Time

variable {σ ρ ι : Type}

theorem saveSets_fun (date : DateTime) (duration : Int) (state : σ) (S S' : MetricSet σ → SetState) : ∀ ms : List (MetricSet σ),
    (∀ m ∈ ms, m.save date duration state (S m) = .ok (S' m)) → saveSets date duration state ms (ms.map S) = .ok (ms.map S') := by
  intro ms
  induction ms with
  | nil => intro _; rfl
  | cons m ms ih =>
    intro h
    simp only [List.map_cons, saveSets, h m List.mem_cons_self, ih fun y hy => h y (List.mem_cons_of_mem _ hy)]

theorem saveScenarios_fun (sets : List (MetricSet σ)) (date : DateTime) (duration : Int) (X : ι → σ) (S S' : ι → MetricSet σ → SetState) :
    ∀ L : List ι, (∀ i ∈ L, ∀ m ∈ sets, m.save date duration (X i) (S i m) = .ok (S' i m)) →
      saveScenarios sets date duration (L.map X) (L.map fun i => sets.map (S i)) = .ok (L.map fun i => sets.map (S' i)) := by
  intro L
  induction L with
  | nil => intro _; rfl
  | cons i L ih =>
    intro h
    simp only [List.map_cons, saveScenarios, saveSets_fun date duration (X i) (S i) (S' i) sets (h i List.mem_cons_self),
      ih fun y hy => h y (List.mem_cons_of_mem _ hy)]

theorem finaliseSets_fun (S S' : MetricSet σ → SetState) : ∀ ms : List (MetricSet σ),
    (∀ m ∈ ms, m.finalise (S m) = .ok (S' m)) → finaliseSets ms (ms.map S) = .ok (ms.map S') := by
  intro ms
  induction ms with
  | nil => intro _; rfl
  | cons m ms ih =>
    intro h
    simp only [List.map_cons, finaliseSets, h m List.mem_cons_self, ih fun y hy => h y (List.mem_cons_of_mem _ hy)]

theorem finaliseScenarios_fun (sets : List (MetricSet σ)) (S S' : ι → MetricSet σ → SetState) :
    ∀ L : List ι, (∀ i ∈ L, ∀ m ∈ sets, m.finalise (S i m) = .ok (S' i m)) →
      finaliseScenarios sets (L.map fun i => sets.map (S i)) = .ok (L.map fun i => sets.map (S' i)) := by
  intro L
  induction L with
  | nil => intro _; rfl
  | cons i L ih =>
    intro h
    simp only [List.map_cons, finaliseScenarios, finaliseSets_fun (S i) (S' i) sets (h i List.mem_cons_self),
      ih fun y hy => h y (List.mem_cons_of_mem _ hy)]

/-- The current values of all scenarios and sets. -/
abbrev Frame := List (List (Option (List PeriodValue)))

/-- A recorder over a list of frames. -/
def writes (write : Writer ρ) : List Frame → ρ → Except OutError ρ
  | [], r => .ok r
  | f :: fs, r =>
    match write f r with
    | .error e => .error e
    | .ok r => writes write fs r

/-- The frames, from the current values of every scenario and set over time. -/
def framesOf (L : List ι) (sets : List (MetricSet σ)) : Nat → (ι → MetricSet σ → List (Option (List PeriodValue))) → List Frame
  | 0, _ => []
  | n + 1, tr => (L.map fun i => sets.map fun m => (tr i m).headD none) :: framesOf L sets n fun i m => (tr i m).tail

/-- The observations of a scenario. -/
def obsOf (X : Step σ → σ) (steps : List (Step σ)) : List (DateTime × Int × σ) := steps.map fun t => (t.date, t.duration, X t)

theorem record_frames (sets : List (MetricSet σ)) (L : List ι) (X : ι → Step σ → σ) (write : Writer ρ) :
    ∀ (steps : List (Step σ)) (S : ι → MetricSet σ → SetState) (r : ρ) (tr : ι → MetricSet σ → List (Option (List PeriodValue))),
      (∀ t ∈ steps, t.states = L.map fun i => X i t) →
      (∀ i ∈ L, ∀ m ∈ sets, setRun m (S i m) (obsOf (X i) steps) = .ok (tr i m)) →
      (match recordSteps sets write (L.map fun i => sets.map (S i)) r steps with
        | .error e => .error e
        | .ok (states, r) =>
          match finaliseScenarios sets states with
          | .error e => .error e
          | .ok states => write (currents states) r) = writes write (framesOf L sets (steps.length + 1) tr) r := by
  intro steps
  induction steps with
  | nil =>
    intro S r tr _ htr
    have hf : ∀ i ∈ L, ∀ m ∈ sets, ∃ s, m.finalise (S i m) = .ok s ∧ tr i m = [s.current] := by
      intro i hi m hm
      have h := htr i hi m hm
      simp only [obsOf, List.map_nil, setRun] at h
      cases hf : m.finalise (S i m) with
      | error e => rw [hf] at h; simp at h
      | ok s => rw [hf] at h; exact ⟨s, rfl, by simpa using h.symm⟩
    let S' : ι → MetricSet σ → SetState := fun i m => match m.finalise (S i m) with
      | .error _ => S i m
      | .ok s => s
    have hS' : ∀ i ∈ L, ∀ m ∈ sets, m.finalise (S i m) = .ok (S' i m) := by
      intro i hi m hm
      obtain ⟨s, h, _⟩ := hf i hi m hm
      simp only [S', h]
    simp only [recordSteps, finaliseScenarios_fun sets S S' L hS', List.length_nil, framesOf, writes]
    have : currents (L.map fun i => sets.map (S' i)) = L.map fun i => sets.map fun m => (tr i m).headD none := by
      simp only [currents, List.map_map]
      refine List.map_congr_left fun i hi => ?_
      simp only [Function.comp, List.map_map]
      refine List.map_congr_left fun m hm => ?_
      obtain ⟨s, h, h2⟩ := hf i hi m hm
      simp only [Function.comp, S', h, h2, List.headD_cons]
    rw [this]
    cases write _ r <;> rfl
  | cons t ts ih =>
    intro S r tr hX htr
    have hf : ∀ i ∈ L, ∀ m ∈ sets, ∃ s rest, m.save t.date t.duration (X i t) (S i m) = .ok s ∧ tr i m = s.current :: rest ∧
        setRun m s (obsOf (X i) ts) = .ok rest := by
      intro i hi m hm
      have h := htr i hi m hm
      simp only [obsOf, List.map_cons, setRun] at h
      cases hf : m.save t.date t.duration (X i t) (S i m) with
      | error e => rw [hf] at h; simp at h
      | ok s =>
        rw [hf] at h
        simp only at h
        cases hr : setRun m s (ts.map fun t => (t.date, t.duration, X i t)) with
        | error e => rw [hr] at h; simp at h
        | ok rest =>
          rw [hr] at h
          simp only [Except.ok.injEq] at h
          exact ⟨s, rest, rfl, h.symm, hr⟩
    let S' : ι → MetricSet σ → SetState := fun i m => match m.save t.date t.duration (X i t) (S i m) with
      | .error _ => S i m
      | .ok s => s
    have hS' : ∀ i ∈ L, ∀ m ∈ sets, m.save t.date t.duration (X i t) (S i m) = .ok (S' i m) := by
      intro i hi m hm
      obtain ⟨s, _, h, _⟩ := hf i hi m hm
      simp only [S', h]
    have hsave := saveScenarios_fun sets t.date t.duration (fun i => X i t) S S' L hS'
    rw [← hX t List.mem_cons_self] at hsave
    have hcur : currents (L.map fun i => sets.map (S' i)) = L.map fun i => sets.map fun m => (tr i m).headD none := by
      simp only [currents, List.map_map]
      refine List.map_congr_left fun i hi => ?_
      simp only [Function.comp, List.map_map]
      refine List.map_congr_left fun m hm => ?_
      obtain ⟨s, _, h, h2, _⟩ := hf i hi m hm
      simp only [Function.comp, S', h, h2, List.headD_cons]
    have hnext : ∀ i ∈ L, ∀ m ∈ sets, setRun m (S' i m) (obsOf (X i) ts) = .ok (tr i m).tail := by
      intro i hi m hm
      obtain ⟨s, rest, h, h2, h3⟩ := hf i hi m hm
      simp only [S', h, h2, List.tail_cons, h3]
    simp only [recordSteps, hsave, List.length_cons, framesOf, writes, hcur]
    cases write (L.map fun i => sets.map fun m => (tr i m).headD none) r with
    | error e => rfl
    | ok r' => exact ih S' r' (fun i m => (tr i m).tail) (fun t ht => hX t (List.mem_cons_of_mem _ ht)) hnext

theorem joined_length {α : Type} {ms : List α} {c : List (Option PeriodValue)} {t : List (Option (List PeriodValue))}
    {r : α → List (Option PeriodValue)} (h : Joined ms c t r) : t.length = c.length := by
  induction h with
  | nil => rfl
  | none _ _ ih => simp [ih]
  | some _ _ _ _ ih => simp [ih]

theorem map_const_range {α β : Type} (l : List α) (b : β) : l.map (fun _ => b) = (List.range l.length).map fun _ => b := by
  simp [List.map_const']

theorem obs_dates (X : Step σ → σ) (steps : List (Step σ)) : (obsOf X steps).map dateAt = dates steps := by
  simp only [obsOf, dates, List.map_map]; rfl

theorem obs_series {I : Nat} {X : Nat → Step σ → σ} {i : Nat} (hi : i < I) (x : OutMetric σ) : ∀ {steps : List (Step σ)},
    (∀ t ∈ steps, t.states = (List.range I).map fun i => X i t) → (obsOf (X i) steps).map (valueAt x) = series x i steps := by
  intro steps
  induction steps with
  | nil => intro _; rfl
  | cons t ts ih =>
    intro h
    have ht : t.states[i]? = some (X i t) := by
      rw [h t List.mem_cons_self]
      simp [hi]
    have := ih fun t ht => h t (List.mem_cons_of_mem _ ht)
    simp only [obsOf, List.map_cons, series, List.filterMap_cons, ht, Option.map_some] at this ⊢
    rw [this]
    rfl

/-- What every scenario, set and metric yields over a run, and what the recorder is given. -/
theorem run_frames [Inhabited σ] (sets : List (MetricSet σ)) (scenarios : List ScenarioName) (steps : List (Step σ))
    (hI : ∀ t ∈ steps, t.states.length = scenarios.length) (hacc : Accepts sets steps) :
    ∃ (tr : Nat → MetricSet σ → List (Option (List PeriodValue))) (c : MetricSet σ → List (Option PeriodValue)),
      (∀ m ∈ sets, yieldsOf m (dates steps) = some (c m)) ∧
      (∀ i < scenarios.length, ∀ m ∈ sets, m.metrics ≠ [] → ∃ r : OutMetric σ → List (Option PeriodValue),
        (∀ x ∈ m.metrics, yieldsOf m (series x i steps) = some (r x)) ∧ Joined m.metrics (c m) (tr i m) r) ∧
      ∀ (ρ : Type) (write : Writer ρ) (r : ρ), record sets scenarios write r steps =
        writes write (framesOf (List.range scenarios.length) sets (steps.length + 1) tr) r := by
  let X : Nat → Step σ → σ := fun i t => t.states[i]?.getD default
  have hX : ∀ t ∈ steps, t.states = (List.range scenarios.length).map fun i => X i t := by
    intro t ht
    apply List.ext_getElem (by simp [hI t ht])
    intro i h1 h2
    simp [X, h1]
  have hc : ∀ m ∈ sets, yieldsOf m (dates steps) = some ((yieldsOf m (dates steps)).getD []) := by
    intro m hm
    have := hacc m hm
    rw [recorded_yields] at this
    cases h : yieldsOf m (dates steps) with
    | none => rw [h] at this; exact absurd rfl this
    | some c => rfl
  let tr : Nat → MetricSet σ → List (Option (List PeriodValue)) := fun i m => match setRun m m.setup (obsOf (X i) steps) with
    | .error _ => []
    | .ok t => t
  refine ⟨tr, fun m => (yieldsOf m (dates steps)).getD [], hc, ?_, ?_⟩
  · intro i hi m hm hne
    obtain ⟨t, h1, h2⟩ := setRun_ok (m := m) (obsOf (X i) steps) (by rw [obs_dates]; exact hc m hm)
    obtain ⟨r, h3, h4⟩ := h2 hne
    refine ⟨r, fun x hx => ?_, ?_⟩
    · rw [← obs_series hi x hX]; exact h3 x hx
    · simp only [tr, h1]; exact h4
  · intro ρ write r
    unfold record
    rw [map_const_range]
    have htr : ∀ i ∈ List.range scenarios.length, ∀ m ∈ sets, setRun m m.setup (obsOf (X i) steps) = .ok (tr i m) := by
      intro i hi m hm
      obtain ⟨t, h1, _⟩ := setRun_ok (m := m) (obsOf (X i) steps) (by rw [obs_dates]; exact hc m hm)
      simp only [tr, h1]
    exact record_frames sets (List.range scenarios.length) X write steps (fun _ m => m.setup) r tr hX htr

end Verif.Agg
