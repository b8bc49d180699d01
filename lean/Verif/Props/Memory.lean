import Verif.Model.Memory
import Verif.Props.AggFuncs

/-!
# C44: the order of aggregation of the memory recorder
-/

namespace Verif.Agg

open Verif.Calendar Verif.Time

/-! ## Specification -/

/-- Functions that do not depend on how the values are grouped. -/
def Groupable : AggFunc → Bool
  | .sum => true
  | .mean => true
  | .min => true
  | .max => true
  | _ => false

/-- What the value of a scenario is: the total, the least or the greatest of all its values, or their mean weighted by
the durations. -/
def Overall (f : AggFunc) (rows : List Row) (n : Nat) (r : ℚ) : Prop :=
  match f with
  | .sum => r = (rows.map (fun row => row.values.sum)).sum
  | .mean => r * (n * (rows.map (fun row => fractionalDays row.duration)).sum) =
      (rows.map (fun row => row.values.sum * fractionalDays row.duration)).sum
  | .min => IsMin (rows.map (·.values)).flatten r
  | .max => IsMax (rows.map (·.values)).flatten r
  | _ => False

/-- Data of one scenario: at least one period, every period with the values of the same `n` metrics, of positive
duration and of representable size. -/
def Rectangular (fmax : ℚ) (n : Nat) (rows : List Row) : Prop :=
  rows ≠ [] ∧ 0 < n ∧ ∀ row ∈ rows, row.values.length = n ∧ 0 < row.duration ∧ ∀ v ∈ row.values, |v| ≤ fmax

instance (fmax : ℚ) (n : Nat) (rows : List Row) : Decidable (Rectangular fmax n rows) := by unfold Rectangular; infer_instance

/-! ## A single value -/

theorem calcIter_single (fmax : ℚ) (f : AggFunc) (hf : Groupable f = true) (x : ℚ) (hx : f = .min ∨ f = .max → |x| ≤ fmax) :
    calcIter fmax f [x] = x := by
  cases f with
  | sum => simp [calcIter]
  | mean => simp [calcIter]
  | min => have := (C50_values fmax .min [x] (by simp) (by simpa using hx (.inl rfl))).1; simpa using this
  | max => have := (C50_values fmax .max [x] (by simp) (by simpa using hx (.inr rfl))).1; simpa using this
  | product => cases hf
  | countNonZero => cases hf
  | countFunc _ => cases hf
  | anyNonZero _ => cases hf

theorem applyPlain_eq (fmax : ℚ) (f : AggFunc) (hf : Groupable f = true) (values : List ℚ)
    (hb : f = .min ∨ f = .max → ∀ v ∈ values, |v| ≤ fmax) :
    applyPlain fmax (some f) values = .ok (calcIter fmax f values) := by
  rcases values with _ | ⟨x, _ | ⟨y, t⟩⟩
  · rfl
  · show Except.ok x = _
    rw [calcIter_single fmax f hf x (fun h => hb h x (by simp))]
  · rfl

theorem calcPeriod_single (f : AggFunc) (hf : Groupable f = true) (v : PeriodValue) (hd : 0 < v.duration) : calcPeriod f [v] = some v.value := by
  cases f with
  | sum => simp [calcPeriod]
  | mean =>
    have := fractionalDays_pos hd
    rw [calcPeriod_mean [v] (by simp) (by simpa using hd)]
    simp only [totalDays, List.map_cons, List.map_nil, List.sum_cons, List.sum_nil, add_zero]
    congr 1
    field_simp
  | min => rfl
  | max => rfl
  | product => cases hf
  | countNonZero => cases hf
  | countFunc _ => cases hf
  | anyNonZero _ => cases hf

theorem applyTime_eq (agg : Aggregation) (f : AggFunc) (ht : agg.time = some f) (hf : Groupable f = true) (values : List PeriodValue)
    (hne : values ≠ []) (hd : ∀ v ∈ values, 0 < v.duration) : ∃ x, applyTime agg values = .ok x ∧ calcPeriod f values = some x := by
  obtain ⟨x, hx, _⟩ := C50_periods f values hne hd
  refine ⟨x, ?_, hx⟩
  rcases values with _ | ⟨v, _ | ⟨w, t⟩⟩
  · exact absurd rfl hne
  · rw [calcPeriod_single f hf v (hd v (by simp))] at hx
    show Except.ok v.value = _
    cases hx; rfl
  · show (match agg.time with
      | none => Except.error MemoryError.notDefined
      | some f => match calcPeriod f (v :: w :: t) with
        | none => .error MemoryError.failed
        | some x => .ok x) = _
    rw [ht]
    simp only [hx]

theorem collect_ok {α β : Type} (f : α → Except MemoryError β) (g : α → β) (xs : List α) (h : ∀ x ∈ xs, f x = .ok (g x)) :
    collect f xs = .ok (xs.map g) := by
  induction xs with
  | nil => rfl
  | cons x xs ih =>
    simp only [collect, h x List.mem_cons_self, ih fun y hy => h y (List.mem_cons_of_mem _ hy), List.map_cons]

/-! ## Both orders give the overall value -/

theorem metric_first (fmax : ℚ) (agg : Aggregation) (f : AggFunc) (hf : Groupable f = true) (ht : agg.time = some f) (hm : agg.metric = some f)
    (n : Nat) (rows : List Row) (hr : Rectangular fmax n rows) : ∃ r, metricThenTime fmax agg rows = .ok r ∧ Overall f rows n r := by
  obtain ⟨hne, hn, hall⟩ := hr
  have hcol : collect (applyRow fmax agg) rows = .ok (rows.map fun row => ⟨row.start, row.duration, calcIter fmax f row.values⟩) := by
    apply collect_ok
    intro row hrow
    unfold applyRow
    rw [hm, applyPlain_eq fmax f hf row.values (fun _ => (hall row hrow).2.2)]
  obtain ⟨r, hr1, hr2⟩ := applyTime_eq agg f ht hf (rows.map fun row => ⟨row.start, row.duration, calcIter fmax f row.values⟩)
    (by simpa using hne) (by
      intro v hv
      obtain ⟨row, hrow, rfl⟩ := List.mem_map.mp hv
      exact (hall row hrow).2.1)
  refine ⟨r, ?_, ?_⟩
  · unfold metricThenTime
    rw [hcol]
    exact hr1
  · have hnq : (0 : ℚ) < n := by exact_mod_cast hn
    cases f with
    | sum =>
      simp only [calcPeriod, List.map_map, Option.some.injEq] at hr2
      rw [← hr2]; rfl
    | mean =>
      rw [calcPeriod_mean _ (by simpa using hne) (by
        intro v hv
        obtain ⟨row, hrow, rfl⟩ := List.mem_map.mp hv
        exact (hall row hrow).2.1)] at hr2
      simp only [Option.some.injEq] at hr2
      have hpos := totalDays_pos (rows.map fun row => (⟨row.start, row.duration, calcIter fmax .mean row.values⟩ : PeriodValue))
        (by simpa using hne) (by
          intro v hv
          obtain ⟨row, hrow, rfl⟩ := List.mem_map.mp hv
          exact (hall row hrow).2.1)
      have e1 : totalDays (rows.map fun row => (⟨row.start, row.duration, calcIter fmax .mean row.values⟩ : PeriodValue)) =
          (rows.map (fun row => fractionalDays row.duration)).sum := by
        unfold totalDays; rw [List.map_map]; rfl
      rw [e1] at hr2 hpos
      rw [List.map_map] at hr2
      have e2 : ∀ l : List Row, (∀ row ∈ l, row.values.length = n) →
          (l.map ((fun v : PeriodValue => v.value * fractionalDays v.duration) ∘ fun row => ⟨row.start, row.duration, calcIter fmax .mean row.values⟩)).sum * n =
            (l.map (fun row => row.values.sum * fractionalDays row.duration)).sum := by
        intro l
        induction l with
        | nil => intro _; simp
        | cons row l ih =>
          intro h
          rw [List.map_cons, List.sum_cons, List.map_cons, List.sum_cons, add_mul, ih fun x hx => h x (List.mem_cons_of_mem _ hx)]
          congr 1
          show calcIter fmax .mean row.values * fractionalDays row.duration * n = _
          have hl := h row List.mem_cons_self
          simp only [calcIter, hl]
          rw [if_neg (by omega)]
          field_simp
      have e3 := e2 rows (fun row hrow => (hall row hrow).1)
      show r * (n * (rows.map (fun row => fractionalDays row.duration)).sum) = _
      rw [← e3, ← hr2]
      field_simp
    | min =>
      obtain ⟨hmem, hle⟩ := minBy_spec (show minBy _ = some r from hr2)
      rw [List.map_map] at hmem hle
      obtain ⟨row, hrow, hval⟩ := List.mem_map.mp hmem
      have hval' : calcIter fmax .min row.values = r := hval
      have hmin := calcIter_min (fmax := fmax) (values := row.values) (by
        intro h; have := (hall row hrow).1; rw [h] at this; simp at this; omega) (hall row hrow).2.2
      refine ⟨List.mem_flatten.mpr ⟨row.values, List.mem_map_of_mem hrow, by rw [← hval']; exact hmin.1⟩, fun v hv => ?_⟩
      obtain ⟨l, hl, hvl⟩ := List.mem_flatten.mp hv
      obtain ⟨row', hrow', rfl⟩ := List.mem_map.mp hl
      have hmin' := calcIter_min (fmax := fmax) (values := row'.values) (by
        intro h; rw [h] at hvl; cases hvl) (hall row' hrow').2.2
      exact le_trans (hle _ (List.mem_map.mpr ⟨row', hrow', rfl⟩)) (hmin'.2 v hvl)
    | max =>
      obtain ⟨hmem, hle⟩ := maxBy_spec (show maxBy _ = some r from hr2)
      rw [List.map_map] at hmem hle
      obtain ⟨row, hrow, hval⟩ := List.mem_map.mp hmem
      have hval' : calcIter fmax .max row.values = r := hval
      have hmax := calcIter_max (fmax := fmax) (values := row.values) (by
        intro h; have := (hall row hrow).1; rw [h] at this; simp at this; omega) (hall row hrow).2.2
      refine ⟨List.mem_flatten.mpr ⟨row.values, List.mem_map_of_mem hrow, by rw [← hval']; exact hmax.1⟩, fun v hv => ?_⟩
      obtain ⟨l, hl, hvl⟩ := List.mem_flatten.mp hv
      obtain ⟨row', hrow', rfl⟩ := List.mem_map.mp hl
      have hmax' := calcIter_max (fmax := fmax) (values := row'.values) (by
        intro h; rw [h] at hvl; cases hvl) (hall row' hrow').2.2
      exact le_trans (hmax'.2 v hvl) (hle _ (List.mem_map.mpr ⟨row', hrow', rfl⟩))
    | product => cases hf
    | countNonZero => cases hf
    | countFunc _ => cases hf
    | anyNonZero _ => cases hf

/-- The values of one metric over time. -/
def columnOf (rows : List Row) (i : Nat) : List PeriodValue :=
  rows.map fun r => ⟨r.start, r.duration, r.values.getD i 0⟩

theorem column_eq (n : Nat) (rows : List Row) (h : ∀ row ∈ rows, row.values.length = n) (i : Nat) (hi : i < n) :
    column rows i = .ok (columnOf rows i) := by
  unfold column columnOf
  apply collect_ok
  intro row hrow
  have : i < row.values.length := by rw [h row hrow]; exact hi
  simp [List.getD_eq_getElem?_getD, this]

theorem range_getD (l : List ℚ) : (List.range l.length).map (fun i => l.getD i 0) = l := by
  apply List.ext_getElem
  · simp
  · intro i h1 h2
    simp [List.getD_eq_getElem?_getD, h2]

theorem sum_map_add {α : Type} (l : List α) (f g : α → ℚ) : (l.map (fun x => f x + g x)).sum = (l.map f).sum + (l.map g).sum := by
  induction l with
  | nil => simp
  | cons x l ih => simp only [List.map_cons, List.sum_cons, ih]; ring

theorem sum_map_mul {α : Type} (l : List α) (f : α → ℚ) (c : ℚ) : (l.map (fun x => f x * c)).sum = (l.map f).sum * c := by
  induction l with
  | nil => simp
  | cons x l ih => simp only [List.map_cons, List.sum_cons, ih]; ring

/-- Summing over the metrics the sums over time, each weighted by `w`. -/
theorem exchange (w : Row → ℚ) (n : Nat) (rows : List Row) (h : ∀ row ∈ rows, row.values.length = n) :
    ((List.range n).map (fun i => (rows.map (fun r => r.values.getD i 0 * w r)).sum)).sum = (rows.map (fun r => r.values.sum * w r)).sum := by
  induction rows with
  | nil => simp
  | cons r rows ih =>
    have h1 := ih fun x hx => h x (List.mem_cons_of_mem _ hx)
    have h2 : ∀ i, ((r :: rows).map (fun r => r.values.getD i 0 * w r)).sum = r.values.getD i 0 * w r + (rows.map (fun r => r.values.getD i 0 * w r)).sum := by
      intro i; rw [List.map_cons, List.sum_cons]
    simp only [h2]
    rw [sum_map_add, h1, List.map_cons, List.sum_cons, sum_map_mul]
    congr 2
    have := range_getD r.values
    rw [h r List.mem_cons_self] at this
    rw [this]

theorem time_first (fmax : ℚ) (agg : Aggregation) (f : AggFunc) (hf : Groupable f = true) (ht : agg.time = some f) (hm : agg.metric = some f)
    (n : Nat) (rows : List Row) (hr : Rectangular fmax n rows) : ∃ r, timeThenMetric fmax agg rows = .ok r ∧ Overall f rows n r := by
  obtain ⟨hne, hn, hall⟩ := hr
  have hlen : ∀ row ∈ rows, row.values.length = n := fun row hrow => (hall row hrow).1
  have hcolne : ∀ i, columnOf rows i ≠ [] := by intro i; simpa [columnOf] using hne
  have hcold : ∀ i, ∀ v ∈ columnOf rows i, 0 < v.duration := by
    intro i v hv
    obtain ⟨row, hrow, rfl⟩ := List.mem_map.mp hv
    exact (hall row hrow).2.1
  -- the value of each metric
  have hex : ∀ i, ∃ x, applyTime agg (columnOf rows i) = .ok x ∧ calcPeriod f (columnOf rows i) = some x :=
    fun i => applyTime_eq agg f ht hf _ (hcolne i) (hcold i)
  let T : Nat → ℚ := fun i => (calcPeriod f (columnOf rows i)).getD 0
  have hT : ∀ i, applyTime agg (columnOf rows i) = .ok (T i) ∧ calcPeriod f (columnOf rows i) = some (T i) := by
    intro i
    obtain ⟨x, h1, h2⟩ := hex i
    have : T i = x := by show (calcPeriod f (columnOf rows i)).getD 0 = x; rw [h2]; rfl
    rw [this]; exact ⟨h1, h2⟩
  have hcollect : collect (metricOverTime agg rows) (List.range n) = .ok ((List.range n).map T) := by
    apply collect_ok
    intro i hi
    unfold metricOverTime
    rw [column_eq n rows hlen i (List.mem_range.mp hi)]
    exact (hT i).1
  have hmem : ∀ i < n, ∀ row ∈ rows, row.values.getD i 0 ∈ row.values := by
    intro i hi row hrow
    have hi' : i < row.values.length := by rw [hlen row hrow]; exact hi
    simp [List.getD_eq_getElem?_getD, hi']
  have hTmin : f = .min → ∀ i < n, IsMin (rows.map (fun row => row.values.getD i 0)) (T i) := by
    rintro rfl i _
    have := minBy_spec (show minBy _ = some (T i) from (hT i).2)
    simpa [columnOf, List.map_map, Function.comp_def] using this
  have hTmax : f = .max → ∀ i < n, IsMax (rows.map (fun row => row.values.getD i 0)) (T i) := by
    rintro rfl i _
    have := maxBy_spec (show maxBy _ = some (T i) from (hT i).2)
    simpa [columnOf, List.map_map, Function.comp_def] using this
  have hTin : f = .min ∨ f = .max → ∀ i < n, ∃ row ∈ rows, row.values.getD i 0 = T i := by
    intro h i hi
    rcases h with h | h
    · exact List.mem_map.mp (hTmin h i hi).1
    · exact List.mem_map.mp (hTmax h i hi).1
  have hTb : f = .min ∨ f = .max → ∀ v ∈ (List.range n).map T, |v| ≤ fmax := by
    intro h v hv
    obtain ⟨i, hi, rfl⟩ := List.mem_map.mp hv
    obtain ⟨row, hrow, e⟩ := hTin h i (List.mem_range.mp hi)
    rw [← e]
    exact (hall row hrow).2.2 _ (hmem i (List.mem_range.mp hi) row hrow)
  have hTne : (List.range n).map T ≠ [] := by
    intro h; simp at h; omega
  have hget : ∀ v ∈ (rows.map (·.values)).flatten, ∃ i < n, ∃ row ∈ rows, row.values.getD i 0 = v := by
    intro v hv
    obtain ⟨l, hl, hvl⟩ := List.mem_flatten.mp hv
    obtain ⟨row, hrow, rfl⟩ := List.mem_map.mp hl
    obtain ⟨i, hi, rfl⟩ := List.getElem_of_mem hvl
    refine ⟨i, by rw [← hlen row hrow]; exact hi, row, hrow, ?_⟩
    simp [List.getD_eq_getElem?_getD, hi]
  have hflat : ∀ i < n, ∀ row ∈ rows, row.values.getD i 0 ∈ (rows.map (·.values)).flatten := fun i hi row hrow =>
    List.mem_flatten.mpr ⟨row.values, List.mem_map_of_mem hrow, hmem i hi row hrow⟩
  refine ⟨calcIter fmax f ((List.range n).map T), ?_, ?_⟩
  · cases hrows : rows with
    | nil => exact absurd hrows hne
    | cons first rest =>
      have hfl : first.values.length = n := hlen first (by rw [hrows]; exact List.mem_cons_self)
      rw [hrows] at hcollect
      simp only [timeThenMetric, hfl, hcollect, hm]
      exact applyPlain_eq fmax f hf _ hTb
  · cases f with
    | sum =>
      have e := exchange (fun _ => 1) n rows hlen
      simp only [mul_one] at e
      show ((List.range n).map T).sum = _
      rw [← e]
      congr 1
      apply List.map_congr_left
      intro i _
      have := (hT i).2
      simp only [calcPeriod, columnOf, List.map_map, Option.some.injEq] at this
      rw [← this]; rfl
    | mean =>
      have hnq : (0 : ℚ) < n := by exact_mod_cast hn
      have e := exchange (fun r => fractionalDays r.duration) n rows hlen
      show calcIter fmax .mean ((List.range n).map T) * (n * (rows.map (fun row => fractionalDays row.duration)).sum) = _
      rw [← e]
      have hm' : calcIter fmax .mean ((List.range n).map T) = ((List.range n).map T).sum / n := by
        simp only [calcIter, List.length_map, List.length_range]
        rw [if_neg (by omega)]
      rw [hm', show ((List.range n).map T).sum / n * (n * (rows.map (fun row => fractionalDays row.duration)).sum) =
        ((List.range n).map T).sum * (rows.map (fun row => fractionalDays row.duration)).sum by field_simp, ← sum_map_mul]
      congr 1
      apply List.map_congr_left
      intro i _
      have h1 := (hT i).2
      rw [calcPeriod_mean _ (hcolne i) (hcold i)] at h1
      have h2 := totalDays_pos (columnOf rows i) (hcolne i) (hcold i)
      have h3 : totalDays (columnOf rows i) = (rows.map (fun row => fractionalDays row.duration)).sum := by
        unfold totalDays columnOf; rw [List.map_map]; rfl
      rw [h3] at h1 h2
      simp only [Option.some.injEq, columnOf, List.map_map] at h1
      rw [← h1, div_mul_cancel₀ _ (ne_of_gt h2)]
      rfl
    | min =>
      have h := calcIter_min hTne (hTb (.inl rfl))
      obtain ⟨i, hi, e⟩ := List.mem_map.mp h.1
      rw [List.mem_range] at hi
      obtain ⟨row, hrow, e2⟩ := hTin (.inl rfl) i hi
      refine ⟨by rw [← e, ← e2]; exact hflat i hi row hrow, fun v hv => ?_⟩
      obtain ⟨j, hj, row', hrow', rfl⟩ := hget v hv
      exact le_trans (h.2 _ (List.mem_map_of_mem (List.mem_range.mpr hj))) ((hTmin rfl j hj).2 _ (List.mem_map.mpr ⟨row', hrow', rfl⟩))
    | max =>
      have h := calcIter_max hTne (hTb (.inr rfl))
      obtain ⟨i, hi, e⟩ := List.mem_map.mp h.1
      rw [List.mem_range] at hi
      obtain ⟨row, hrow, e2⟩ := hTin (.inr rfl) i hi
      refine ⟨by rw [← e, ← e2]; exact hflat i hi row hrow, fun v hv => ?_⟩
      obtain ⟨j, hj, row', hrow', rfl⟩ := hget v hv
      exact le_trans ((hTmax rfl j hj).2 _ (List.mem_map.mpr ⟨row', hrow', rfl⟩)) (h.2 _ (List.mem_map_of_mem (List.mem_range.mpr hj)))
    | product => cases hf
    | countNonZero => cases hf
    | countFunc _ => cases hf
    | anyNonZero _ => cases hf

theorem Overall.unique {fmax : ℚ} {f : AggFunc} {n : Nat} {rows : List Row} (hr : Rectangular fmax n rows) {r r' : ℚ}
    (h : Overall f rows n r) (h' : Overall f rows n r') : r = r' := by
  cases f with
  | sum => exact Eq.trans h (Eq.symm h')
  | mean =>
    have hpos : 0 < (n : ℚ) * (rows.map (fun row => fractionalDays row.duration)).sum := by
      have hn : (0 : ℚ) < n := by exact_mod_cast hr.2.1
      have := totalDays_pos (columnOf rows 0) (by simpa [columnOf] using hr.1) (by
        intro v hv
        obtain ⟨row, hrow, rfl⟩ := List.mem_map.mp hv
        exact (hr.2.2 row hrow).2.1)
      have h3 : totalDays (columnOf rows 0) = (rows.map (fun row => fractionalDays row.duration)).sum := by
        unfold totalDays columnOf; rw [List.map_map]; rfl
      rw [h3] at this
      exact mul_pos hn this
    exact mul_right_cancel₀ (ne_of_gt hpos) (Eq.trans h (Eq.symm h'))
  | min => exact le_antisymm (h.2 _ h'.1) (h'.2 _ h.1)
  | max => exact le_antisymm (h'.2 _ h.1) (h.2 _ h'.1)
  | product => cases h
  | countNonZero => cases h
  | countFunc _ => cases h
  | anyNonZero _ => cases h

/-! ## The property -/

/-- **C44** If the same function, sum, mean, minimum or maximum, aggregates over metrics and over time, then both orders
give each scenario its overall value. -/
theorem C44_overall (fmax : ℚ) (agg : Aggregation) (f : AggFunc) (hf : Groupable f = true) (ht : agg.time = some f) (hm : agg.metric = some f)
    (n : Nat) (rows : List Row) (hr : Rectangular fmax n rows) :
    ∃ r, Overall f rows n r ∧ metricThenTime fmax agg rows = .ok r ∧ timeThenMetric fmax agg rows = .ok r := by
  obtain ⟨r, h1, h2⟩ := metric_first fmax agg f hf ht hm n rows hr
  obtain ⟨r', h3, h4⟩ := time_first fmax agg f hf ht hm n rows hr
  exact ⟨r, h2, h1, by rw [h3, Overall.unique hr h2 h4]⟩

/-- **C44** Then the order makes no difference to the aggregated value, however many scenarios there are and however they
are aggregated. -/
theorem C44_order (fmax : ℚ) (agg : Aggregation) (f : AggFunc) (hf : Groupable f = true) (ht : agg.time = some f) (hm : agg.metric = some f)
    (n : Nat) (data : List (List Row)) (hr : ∀ rows ∈ data, Rectangular fmax n rows) :
    aggregate fmax agg .metricTimeScenario data = aggregate fmax agg .timeMetricScenario data := by
  have : collect (metricThenTime fmax agg) data = collect (timeThenMetric fmax agg) data := by
    induction data with
    | nil => rfl
    | cons rows data ih =>
      obtain ⟨r, _, h1, h2⟩ := C44_overall fmax agg f hf ht hm n rows (hr rows List.mem_cons_self)
      simp only [collect, h1, h2, ih fun x hx => hr x (List.mem_cons_of_mem _ hx)]
  show (match collect (metricThenTime fmax agg) data with
    | .error e => Except.error e
    | .ok values => applyPlain fmax agg.scenario values) = (match collect (timeThenMetric fmax agg) data with
    | .error e => Except.error e
    | .ok values => applyPlain fmax agg.scenario values)
  rw [this]

/-- Two periods of unequal length and three metrics. -/
def sampleRows : List Row :=
  [⟨⟨⟨2020, 1, 1⟩, 0⟩, nsPerDay, [1, 2, 3]⟩, ⟨⟨⟨2020, 1, 2⟩, 0⟩, 3 * nsPerDay, [-4, 5, 0]⟩]

/-- Meets the hypotheses: the weighted mean of six values over four days. -/
example : Rectangular 1000 3 sampleRows ∧ aggregate 1000 ⟨none, some .mean, some .mean⟩ .metricTimeScenario [sampleRows] = .ok (3 / 4) ∧
    aggregate 1000 ⟨none, some .mean, some .mean⟩ .timeMetricScenario [sampleRows] = .ok (3 / 4) ∧
    aggregate 1000 ⟨some .sum, some .max, some .max⟩ .timeMetricScenario [sampleRows, sampleRows] = .ok 10 := by decide +kernel

/-- **C44** When every dimension has a function, and it is one of these, a dimension with a single value is treated as
any other. -/
theorem C44_single (fmax : ℚ) (f : AggFunc) (hf : Groupable f = true) (x : ℚ) (hx : |x| ≤ fmax) (v : PeriodValue) (hv : 0 < v.duration)
    (agg : Aggregation) (ht : agg.time = some f) :
    applyPlain fmax (some f) [x] = .ok (calcIter fmax f [x]) ∧ calcPeriod f [v] = some v.value ∧ applyTime agg [v] = .ok v.value := by
  refine ⟨applyPlain_eq fmax f hf [x] (by simpa using fun _ => hx), calcPeriod_single f hf v hv, ?_⟩
  obtain ⟨y, h1, h2⟩ := applyTime_eq agg f ht hf [v] (by simp) (by simpa using hv)
  rw [calcPeriod_single f hf v hv] at h2
  cases h2; exact h1

/-- **C44** Each dimension with two or more entries is aggregated by its own function, in the order asked for. -/
theorem C44_functions (fmax : ℚ) (fs ft fm : AggFunc) (n : Nat) (data : List (List Row)) (hn : 2 ≤ n) (hd : 2 ≤ data.length)
    (hr : ∀ rows ∈ data, 2 ≤ rows.length ∧ Rectangular fmax n rows) :
    ∃ (metricFirst timeFirst : List Row → ℚ),
      (∀ rows ∈ data, calcPeriod ft (rows.map fun r => ⟨r.start, r.duration, calcIter fmax fm r.values⟩) = some (metricFirst rows)) ∧
      (∀ rows ∈ data, ∃ over : Nat → ℚ, (∀ i < n, calcPeriod ft (columnOf rows i) = some (over i)) ∧
        timeFirst rows = calcIter fmax fm ((List.range n).map over)) ∧
      aggregate fmax ⟨some fs, some ft, some fm⟩ .metricTimeScenario data = .ok (calcIter fmax fs (data.map metricFirst)) ∧
      aggregate fmax ⟨some fs, some ft, some fm⟩ .timeMetricScenario data = .ok (calcIter fmax fs (data.map timeFirst)) := by
  have plain : ∀ (f : AggFunc) (l : List ℚ), 2 ≤ l.length → applyPlain fmax (some f) l = .ok (calcIter fmax f l) := by
    intro f l hl
    rcases l with _ | ⟨x, _ | ⟨y, t⟩⟩
    · simp at hl
    · simp at hl
    · rfl
  have time : ∀ (l : List PeriodValue), 2 ≤ l.length → (∀ v ∈ l, 0 < v.duration) →
      applyTime ⟨some fs, some ft, some fm⟩ l = .ok ((calcPeriod ft l).getD 0) ∧ calcPeriod ft l = some ((calcPeriod ft l).getD 0) := by
    intro l hl hpos
    obtain ⟨x, hx, _⟩ := C50_periods ft l (by rintro rfl; simp at hl) hpos
    rw [hx]
    refine ⟨?_, rfl⟩
    rcases l with _ | ⟨v, _ | ⟨w, t⟩⟩
    · simp at hl
    · simp at hl
    · simp only [applyTime, hx, Option.getD_some]
  have dur : ∀ rows ∈ data, ∀ g : Row → ℚ, ∀ v ∈ rows.map (fun r => (⟨r.start, r.duration, g r⟩ : PeriodValue)), 0 < v.duration := by
    intro rows hrows g v hv
    obtain ⟨row, hrow, rfl⟩ := List.mem_map.mp hv
    exact ((hr rows hrows).2.2.2 row hrow).2.1
  refine ⟨fun rows => (calcPeriod ft (rows.map fun r => ⟨r.start, r.duration, calcIter fmax fm r.values⟩)).getD 0,
    fun rows => calcIter fmax fm ((List.range n).map fun i => (calcPeriod ft (columnOf rows i)).getD 0), ?_, ?_, ?_, ?_⟩
  · intro rows hrows
    exact (time _ (by simpa using (hr rows hrows).1) (dur rows hrows _)).2
  · intro rows hrows
    exact ⟨_, fun i _ => (time _ (by simpa [columnOf] using (hr rows hrows).1) (dur rows hrows _)).2, rfl⟩
  · unfold aggregate
    simp only
    rw [collect_ok _ (fun rows => (calcPeriod ft (rows.map fun r => ⟨r.start, r.duration, calcIter fmax fm r.values⟩)).getD 0) data]
    · exact plain _ _ (by simpa using hd)
    · intro rows hrows
      unfold metricThenTime
      rw [collect_ok _ (fun r : Row => (⟨r.start, r.duration, calcIter fmax fm r.values⟩ : PeriodValue)) rows]
      · exact (time _ (by simpa using (hr rows hrows).1) (dur rows hrows _)).1
      · intro row hrow
        unfold applyRow
        rw [plain fm row.values (by rw [((hr rows hrows).2.2.2 row hrow).1]; exact hn)]
  · unfold aggregate
    simp only
    rw [collect_ok _ (fun rows => calcIter fmax fm ((List.range n).map fun i => (calcPeriod ft (columnOf rows i)).getD 0)) data]
    · exact plain _ _ (by simpa using hd)
    · intro rows hrows
      obtain ⟨h2, hne, _, hall⟩ := hr rows hrows
      rcases rows with _ | ⟨first, rest⟩
      · exact absurd rfl hne
      · simp only [timeThenMetric, (hall first List.mem_cons_self).1]
        rw [collect_ok _ (fun i => (calcPeriod ft (columnOf (first :: rest) i)).getD 0)]
        · exact plain _ _ (by simpa using hn)
        · intro i hi
          unfold metricOverTime
          rw [column_eq n _ (fun row hrow => (hall row hrow).1) i (List.mem_range.mp hi)]
          exact (time _ (by simpa [columnOf] using h2) (dur _ hrows _)).1

/-- **C44, refuted for single values.** Counting non-zero values counts two of two metrics, but of one metric it returns
the value itself. -/
theorem C44_single_refuted :
    ∃ (agg : Aggregation) (one two : List Row), agg = ⟨none, some .sum, some .countNonZero⟩ ∧
      Rectangular 1000 1 one ∧ Rectangular 1000 2 two ∧
      (∀ order, aggregate 1000 agg order [two] = .ok 2) ∧ (∀ order, aggregate 1000 agg order [one] = .ok 5) ∧ calcIter 1000 .countNonZero [5] = 1 := by
  refine ⟨⟨none, some .sum, some .countNonZero⟩, [⟨⟨⟨2020, 1, 1⟩, 0⟩, nsPerDay, [5]⟩], [⟨⟨⟨2020, 1, 1⟩, 0⟩, nsPerDay, [5, 5]⟩],
    rfl, by decide +kernel, by decide +kernel, ?_, ?_, by decide +kernel⟩
  · intro order; cases order <;> decide +kernel
  · intro order; cases order <;> decide +kernel

/-- **C44** The functions have to be the same: the sum of the daily peaks is not the peak of the sums. -/
theorem C44_mixed_refuted :
    aggregate 1000 ⟨none, some .sum, some .max⟩ .metricTimeScenario [sampleRows] = .ok 8 ∧
      aggregate 1000 ⟨none, some .sum, some .max⟩ .timeMetricScenario [sampleRows] = .ok 7 := by decide +kernel

/-- **C44** There has to be a recorded period: without one the sum is zero in one order and the other order panics. -/
theorem C44_empty_refuted (fmax : ℚ) :
    aggregate fmax ⟨none, some .sum, some .sum⟩ .metricTimeScenario [[]] = .ok 0 ∧
      aggregate fmax ⟨none, some .sum, some .sum⟩ .timeMetricScenario [[]] = .error .panic := ⟨rfl, rfl⟩

/-- What is saved in a step is one row of all values, in order. -/
theorem rowOf_spec (values : List PeriodValue) (hne : values ≠ []) (start : DateTime) (d : Int)
    (h : ∀ v ∈ values, v.start = start ∧ v.duration = d) : rowOf values = some ⟨start, d, values.map (·.value)⟩ := by
  rcases values with _ | ⟨v, t⟩
  · exact absurd rfl hne
  · have hl : (v :: t).getLast? = some ((v :: t).getLast (by simp)) := List.getLast?_eq_some_getLast (by simp)
    simp only [rowOf, List.head?_cons, hl, (h v (by simp)).1, (h _ (List.getLast_mem (by simp))).2]

end Verif.Agg
