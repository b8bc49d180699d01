import Verif.Lemmas.Outputs

/-!
# A metric set yields for all of its metrics or for none
-/

namespace Verif.Agg

open Verif.Calendar Verif.Time

variable {σ α : Type}

theorem saveLoop_fun (levels : List Level) (V : α → PeriodValue) (S S' : α → List (List PeriodValue)) (O : α → Option PeriodValue) :
    ∀ ms : List α, (∀ x ∈ ms, append levels (S x) (V x) = some (S' x, O x)) →
      saveLoop levels (ms.map V) (ms.map S) = some (ms.map S', ms.filterMap O) := by
  intro ms
  induction ms with
  | nil => intro _; rfl
  | cons x ms ih =>
    intro h
    simp only [List.map_cons, saveLoop, h x List.mem_cons_self, ih fun y hy => h y (List.mem_cons_of_mem _ hy)]
    cases hO : O x <;> simp [hO]

theorem finaliseLoop_some (levels : List Level) (S : α → List (List PeriodValue)) (W : α → PeriodValue) :
    ∀ ms : List α, (∀ x ∈ ms, ∃ s, finalise levels (S x) = some (s, some (W x))) →
      finaliseLoop levels (ms.map S) = .ok (some (ms.map W)) := by
  intro ms
  induction ms with
  | nil => intro _; rfl
  | cons x ms ih =>
    intro h
    obtain ⟨s, hs⟩ := h x List.mem_cons_self
    simp only [List.map_cons, finaliseLoop, hs, ih fun y hy => h y (List.mem_cons_of_mem _ hy)]

theorem finaliseLoop_none (levels : List Level) (S : α → List (List PeriodValue)) {ms : List α} (hne : ms ≠ [])
    (h : ∀ x ∈ ms, ∃ s, finalise levels (S x) = some (s, none)) : finaliseLoop levels (ms.map S) = .ok none := by
  cases ms with
  | nil => exact absurd rfl hne
  | cons x ms =>
    obtain ⟨s, hs⟩ := h x List.mem_cons_self
    simp only [List.map_cons, finaliseLoop, hs]

/-- The current values after every remaining step and at the end. -/
def setRun (m : MetricSet σ) : SetState → List (DateTime × Int × σ) → Except OutError (List (Option (List PeriodValue)))
  | s, [] =>
    match m.finalise s with
    | .error e => .error e
    | .ok s => .ok [s.current]
  | s, o :: os =>
    match m.save o.1 o.2.1 o.2.2 s with
    | .error e => .error e
    | .ok s =>
      match setRun m s os with
      | .error e => .error e
      | .ok t => .ok (s.current :: t)

/-- The rows of a metric set put together from what its metrics yield; all have the periods of the first list. -/
inductive Joined (ms : List α) : List (Option PeriodValue) → List (Option (List PeriodValue)) → (α → List (Option PeriodValue)) → Prop
  | nil {r : α → List (Option PeriodValue)} (h : ∀ x ∈ ms, r x = []) : Joined ms [] [] r
  | none {r r' : α → List (Option PeriodValue)} {c : List (Option PeriodValue)} {t : List (Option (List PeriodValue))}
      (h : ∀ x ∈ ms, r x = none :: r' x) (k : Joined ms c t r') : Joined ms (none :: c) (none :: t) r
  | some {r r' : α → List (Option PeriodValue)} {c : List (Option PeriodValue)} {t : List (Option (List PeriodValue))}
      {p : PeriodValue} (W : α → PeriodValue) (hp : ∀ x ∈ ms, Same p (W x)) (h : ∀ x ∈ ms, r x = some (W x) :: r' x)
      (k : Joined ms c t r') : Joined ms (some p :: c) (some (ms.map W) :: t) r

/-- The value of a metric at a step. -/
def valueAt (x : OutMetric σ) (o : DateTime × Int × σ) : PeriodValue := { start := o.1, duration := o.2.1, value := x.get o.2.2 }

/-- The date of a step. -/
def dateAt (o : DateTime × Int × σ) : PeriodValue := { start := o.1, duration := o.2.1, value := 0 }

theorem dates_same (x : OutMetric σ) : ∀ os : List (DateTime × Int × σ), SameList (os.map dateAt) (os.map (valueAt x))
  | [] => .nil
  | _ :: os => .cons ⟨rfl, rfl⟩ (dates_same x os)

theorem rel_some {a : Option PeriodValue} {p : PeriodValue} (h : Option.Rel Same (some p) a) : ∃ w, a = some w ∧ Same p w := by
  cases h with
  | some h => exact ⟨_, rfl, h⟩

theorem rel_none {a : Option PeriodValue} (h : Option.Rel Same none a) : a = none := by
  cases h; rfl

theorem filterMap_all_none {O : α → Option PeriodValue} {ms : List α} (h : ∀ x ∈ ms, O x = none) : ms.filterMap O = [] := by
  induction ms with
  | nil => rfl
  | cons x ms ih =>
    rw [List.filterMap_cons, h x List.mem_cons_self]
    exact ih fun y hy => h y (List.mem_cons_of_mem _ hy)

theorem filterMap_all_some {O : α → Option PeriodValue} {W : α → PeriodValue} {ms : List α} (h : ∀ x ∈ ms, O x = some (W x)) :
    ms.filterMap O = ms.map W := by
  induction ms with
  | nil => rfl
  | cons x ms ih =>
    rw [List.filterMap_cons, h x List.mem_cons_self, List.map_cons, ih fun y hy => h y (List.mem_cons_of_mem _ hy)]

theorem setRun_agg {m : MetricSet σ} {levels : List Level} (hm : m.aggregator = some levels) (hne : m.metrics ≠ []) :
    ∀ (os : List (DateTime × Int × σ)) (cur : Option (List PeriodValue)) (S : OutMetric σ → List (List PeriodValue))
      (Z : List (List PeriodValue)) (c : List (Option PeriodValue)),
      (∀ x ∈ m.metrics, SameStates Z (S x)) → yields levels Z (os.map dateAt) = some c →
      ∃ (t : List (Option (List PeriodValue))) (r : OutMetric σ → List (Option PeriodValue)),
        setRun m ⟨cur, some (m.metrics.map S)⟩ os = .ok t ∧
        (∀ x ∈ m.metrics, yields levels (S x) (os.map (valueAt x)) = some (r x)) ∧ Joined m.metrics c t r := by
  intro os
  induction os with
  | nil =>
    intro cur S Z c hS hc
    simp only [List.map_nil, yields] at hc
    cases hz : finalise levels Z with
    | none => rw [hz] at hc; simp at hc
    | some z =>
      obtain ⟨z, o⟩ := z
      rw [hz] at hc
      simp only [Option.map_some, Option.some.injEq] at hc
      subst hc
      have hall : ∀ x ∈ m.metrics, ∃ s w, finalise levels (S x) = some (s, w) ∧ Option.Rel Same o w := by
        intro x hx
        have h := finalise_same levels (hS x hx)
        rw [hz] at h
        cases hf : finalise levels (S x) with
        | none => rw [hf] at h; cases h
        | some y =>
          rw [hf] at h
          cases h with
          | some h => exact ⟨y.1, y.2, rfl, h.2⟩
      cases o with
      | none =>
        refine ⟨[none], fun _ => [none], ?_, ?_, .none (r' := fun _ => []) (fun _ _ => rfl) (.nil fun _ _ => rfl)⟩
        · have := finaliseLoop_none levels S hne fun x hx => by
            obtain ⟨s, w, h1, h2⟩ := hall x hx
            exact ⟨s, by rw [h1, rel_none h2]⟩
          simp only [setRun, MetricSet.finalise, hm, this]
        · intro x hx
          obtain ⟨s, w, h1, h2⟩ := hall x hx
          simp only [List.map_nil, yields, h1, rel_none h2, Option.map_some]
      | some p =>
        have hW : ∀ x ∈ m.metrics, ∃ s, finalise levels (S x) = some (s, some (((finalise levels (S x)).bind (·.2)).getD p)) ∧
            Same p (((finalise levels (S x)).bind (·.2)).getD p) := by
          intro x hx
          obtain ⟨s, w, h1, h2⟩ := hall x hx
          obtain ⟨w, rfl, h3⟩ := rel_some h2
          exact ⟨s, by rw [h1]; rfl, by rw [h1]; exact h3⟩
        refine ⟨[some (m.metrics.map fun x => ((finalise levels (S x)).bind (·.2)).getD p)],
          fun x => [some (((finalise levels (S x)).bind (·.2)).getD p)], ?_, ?_,
          .some (r' := fun _ => []) _ (fun x hx => ?_) (fun _ _ => rfl) (.nil fun _ _ => rfl)⟩
        · have := finaliseLoop_some levels S (fun x => ((finalise levels (S x)).bind (·.2)).getD p) m.metrics fun x hx => by
            obtain ⟨s, h1, _⟩ := hW x hx
            exact ⟨s, h1⟩
          simp only [setRun, MetricSet.finalise, hm, this]
        · intro x hx
          obtain ⟨s, h1, _⟩ := hW x hx
          simp only [List.map_nil, yields]
          rw [h1]
          rfl
        · obtain ⟨_, _, h2⟩ := hW x hx
          exact h2
  | cons o os ih =>
    intro cur S Z c hS hc
    simp only [List.map_cons, yields] at hc
    cases hz : append levels Z (dateAt o) with
    | none => rw [hz] at hc; simp at hc
    | some z =>
      obtain ⟨Z', q⟩ := z
      rw [hz] at hc
      simp only at hc
      cases hc' : yields levels Z' (os.map dateAt) with
      | none => rw [hc'] at hc; simp at hc
      | some c' =>
        rw [hc'] at hc
        simp only [Option.map_some, Option.some.injEq] at hc
        subst hc
        let S' : OutMetric σ → List (List PeriodValue) := fun x => ((append levels (S x) (valueAt x o)).map (·.1)).getD []
        let O : OutMetric σ → Option PeriodValue := fun x => (append levels (S x) (valueAt x o)).bind (·.2)
        have hall : ∀ x ∈ m.metrics, append levels (S x) (valueAt x o) = some (S' x, O x) ∧ SameStates Z' (S' x) ∧
            Option.Rel Same q (O x) := by
          intro x hx
          have h := append_same levels (hS x hx) (show Same (dateAt o) (valueAt x o) from ⟨rfl, rfl⟩)
          rw [hz] at h
          cases hf : append levels (S x) (valueAt x o) with
          | none => rw [hf] at h; cases h
          | some y =>
            rw [hf] at h
            cases h with
            | some h =>
              refine ⟨?_, ?_, ?_⟩
              · simp only [S', O, hf]; rfl
              · simp only [S', hf]; exact h.1
              · simp only [O, hf]; exact h.2
        have hloop := saveLoop_fun levels (fun x => valueAt x o) S S' O m.metrics fun x hx => (hall x hx).1
        cases q with
        | none =>
          have hO : ∀ x ∈ m.metrics, O x = none := fun x hx => rel_none (hall x hx).2.2
          obtain ⟨t, r, h1, h2, h3⟩ := ih none S' Z' c' (fun x hx => (hall x hx).2.1) hc'
          refine ⟨none :: t, fun x => none :: r x, ?_, ?_, .none (fun _ _ => rfl) h3⟩
          · simp only [valueAt] at hloop
            simp only [setRun, MetricSet.save, hm, hloop, filterMap_all_none hO, if_true, h1]
          · intro x hx
            simp only [List.map_cons, yields, (hall x hx).1, h2 x hx, hO x hx, Option.map_some]
        | some p =>
          have hO : ∀ x ∈ m.metrics, O x = some ((O x).getD p) ∧ Same p ((O x).getD p) := by
            intro x hx
            obtain ⟨w, hw, h3⟩ := rel_some (hall x hx).2.2
            rw [hw]
            exact ⟨rfl, h3⟩
          have hmap := filterMap_all_some (W := fun x => (O x).getD p) fun x hx => (hO x hx).1
          obtain ⟨t, r, h1, h2, h3⟩ := ih (some (m.metrics.map fun x => (O x).getD p)) S' Z' c' (fun x hx => (hall x hx).2.1) hc'
          refine ⟨some (m.metrics.map fun x => (O x).getD p) :: t, fun x => some ((O x).getD p) :: r x, ?_, ?_,
            .some _ (fun x hx => (hO x hx).2) (fun _ _ => rfl) h3⟩
          · simp only [valueAt] at hloop
            have hne' : ¬ (m.metrics.map fun x => (O x).getD p) = [] := by simpa using hne
            simp only [setRun, MetricSet.save, hm, hloop, hmap, List.length_map, if_true, if_neg hne', h1]
          · intro x hx
            simp only [List.map_cons, yields, (hall x hx).1, h2 x hx, Option.map_some]
            rw [← (hO x hx).1]

theorem setRun_plain {m : MetricSet σ} (hm : m.aggregator = none) :
    ∀ (os : List (DateTime × Int × σ)) (s : SetState),
      ∃ t, setRun m s os = .ok t ∧
        Joined m.metrics (os.map (fun o => some (dateAt o)) ++ [none]) t fun x => os.map (fun o => some (valueAt x o)) ++ [none] := by
  intro os
  induction os with
  | nil =>
    intro s
    refine ⟨[none], by simp only [setRun, MetricSet.finalise, hm], .none (r' := fun _ => []) (fun _ _ => rfl) (.nil fun _ _ => rfl)⟩
  | cons o os ih =>
    intro s
    obtain ⟨t, h1, h2⟩ := ih { s with current := some (m.metrics.map fun x => valueAt x o) }
    refine ⟨some (m.metrics.map fun x => valueAt x o) :: t, ?_, .some (fun x => valueAt x o) (fun _ _ => ⟨rfl, rfl⟩) (fun _ _ => rfl) h2⟩
    simp only [valueAt] at h1 ⊢
    simp only [setRun, MetricSet.save, hm, h1]

theorem setRun_empty {m : MetricSet σ} {levels : List Level} (hm : m.aggregator = some levels) (he : m.metrics = []) :
    ∀ (os : List (DateTime × Int × σ)) (cur : Option (List PeriodValue)), ∃ t, setRun m ⟨cur, some []⟩ os = .ok t := by
  intro os
  induction os with
  | nil =>
    intro cur
    exact ⟨[some []], by simp only [setRun, MetricSet.finalise, hm, finaliseLoop]⟩
  | cons o os ih =>
    intro cur
    obtain ⟨t, h⟩ := ih none
    exact ⟨none :: t, by simp only [setRun, MetricSet.save, hm, he, List.map_nil, saveLoop, if_true, h]⟩

/-- What a metric yields at each step and at the end, with or without an aggregator. -/
def yieldsOf (m : MetricSet σ) (values : List PeriodValue) : Option (List (Option PeriodValue)) :=
  match m.aggregator with
  | none => some (values.map some ++ [none])
  | some levels => yields levels (setup levels) values

theorem recorded_yields (m : MetricSet σ) (values : List PeriodValue) :
    recorded m values = (yieldsOf m values).map fun os => os.filterMap id := by
  unfold recorded yieldsOf
  cases m.aggregator with
  | none => simp [List.filterMap_append, List.filterMap_map]
  | some levels => exact yields_run levels values

/-- A metric set that has metrics, over any steps its aggregator accepts. -/
theorem setRun_ok {m : MetricSet σ} (os : List (DateTime × Int × σ)) {c : List (Option PeriodValue)}
    (hc : yieldsOf m (os.map dateAt) = some c) :
    ∃ t, setRun m m.setup os = .ok t ∧ (m.metrics ≠ [] → ∃ r : OutMetric σ → List (Option PeriodValue),
      (∀ x ∈ m.metrics, yieldsOf m (os.map (valueAt x)) = some (r x)) ∧ Joined m.metrics c t r) := by
  cases hm : m.aggregator with
  | none =>
    obtain ⟨t, h1, h2⟩ := setRun_plain hm os m.setup
    refine ⟨t, h1, fun _ => ⟨fun x => os.map (fun o => some (valueAt x o)) ++ [none], fun x _ => ?_, ?_⟩⟩
    · simp only [yieldsOf, hm, List.map_map]; rfl
    · have : c = os.map (fun o => some (dateAt o)) ++ [none] := by
        simp only [yieldsOf, hm, List.map_map, Option.some.injEq] at hc
        rw [← hc]; rfl
      rw [this]; exact h2
  | some levels =>
    have hy : ∀ vs, yieldsOf m vs = yields levels (setup levels) vs := fun vs => by simp only [yieldsOf, hm]
    by_cases he : m.metrics = []
    · obtain ⟨t, h⟩ := setRun_empty hm he os none
      refine ⟨t, ?_, fun h => absurd he h⟩
      have : m.setup = ⟨none, some []⟩ := by simp only [MetricSet.setup, hm, he]; rfl
      rw [this]; exact h
    · rw [hy] at hc
      obtain ⟨t, r, h1, h2, h3⟩ := setRun_agg hm he os none (fun _ => setup levels) (setup levels) c
        (fun _ _ => sameStates_refl _) hc
      refine ⟨t, ?_, fun _ => ⟨r, fun x hx => by rw [hy]; exact h2 x hx, h3⟩⟩
      have : m.setup = ⟨none, some (m.metrics.map fun _ => setup levels)⟩ := by simp only [MetricSet.setup, hm]; rfl
      rw [this]; exact h1

end Verif.Agg
