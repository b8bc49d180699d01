import Verif.Lemmas.Timeseries
import Verif.Props.Timestep
import Mathlib.Tactic.FieldSimp

/-!
# C85: time series

The theorems are for steps of equal length (`Even`): `C85_monthly_refuted` shows that steps of unequal length are given data of other dates.
-/

namespace Verif.Timeseries

open Verif.Time Verif.Calendar

theorem regular_iff {rows : List Row} {start first g : Int} {m : Nat} :
    Regular rows start first g m ↔ 0 ≤ g ∧ (ordered rows start).length = m ∧ Grid (ordered rows start) first g := by
  unfold Regular
  constructor
  · rintro ⟨hg, hp⟩
    have hp' := ((ordered_perm rows start).map (·.time)).trans hp
    have hl : (ordered rows start).length = m := by simpa using hp'.length_eq
    refine ⟨hg, hl, ?_⟩
    rw [grid_map, hl]
    refine List.Perm.eq_of_pairwise (le := fun a b : Int => a ≤ b) (fun a b _ _ => le_antisymm) ?_ ?_ hp'
    · exact List.pairwise_map.2 (ordered_sorted rows start)
    · rw [List.pairwise_map]
      refine List.Pairwise.imp (R := fun a b => a < b) ?_ List.pairwise_lt_range
      intro a b hab
      have : (a : Int) ≤ b := by omega
      have := mul_le_mul_of_nonneg_right this hg
      omega
  · rintro ⟨hg, hl, h⟩
    refine ⟨hg, ?_⟩
    rw [grid_map, hl] at h
    rw [← h]
    exact ((ordered_perm rows start).map _).symm

theorem gap_nonneg {rows : List Row} {start first g : Int} (h : Grid (ordered rows start) first g) (hl : 2 ≤ (ordered rows start).length) : 0 ≤ g := by
  have hs := ordered_sorted rows start
  have h0 := h 0 _ (List.getElem?_eq_getElem (by omega))
  have h1 := h 1 _ (List.getElem?_eq_getElem (by omega))
  have := List.pairwise_iff_getElem.1 hs 0 1 (by omega) (by omega) (by omega)
  push_cast at h0 h1
  omega

/-- `align` for steps of equal length. -/
theorem align_ok {steps : List Timestep} {start d : Int} (he : Even steps start d) {rows out : List Row} :
    align steps rows = .ok out ↔ ∃ g m, 2 ≤ m ∧ Regular rows start start g m ∧ ((steps.length - 1 : Nat) : Int) * d ≤ ((m - 1 : Nat) : Int) * g ∧
      Grid (resample d g (ordered rows start)) start d ∧
      out = (resample d g (ordered rows start)).filter fun r => decide (r.time ≤ start + ((steps.length - 1 : Nat) : Int) * d) := by
  have hn : 0 < steps.length := List.length_pos_iff.2 he.some_step
  have hhead : steps.head? = some steps[0] := by rw [List.head?_eq_getElem?, List.getElem?_eq_getElem hn]
  have hlast : steps.getLast? = some steps[steps.length - 1] := by rw [List.getLast?_eq_getElem?, List.getElem?_eq_getElem (by omega)]
  have ht0 : stepTime steps[0].date = start := by simpa using he.times 0 _ (List.getElem?_eq_getElem hn)
  have htl := he.times (steps.length - 1) _ (List.getElem?_eq_getElem (by omega))
  have hd := he.length _ (List.getElem?_eq_getElem hn)
  have hpos := he.pos
  unfold align
  rw [hhead, hlast]
  simp only [ht0, htl, hd]
  change (match gap (ordered rows start) with
    | .error e => Except.error e
    | .ok g =>
      if ((resample d g (ordered rows start)).filter fun r : Row => decide (r.time ≤ start + ((steps.length - 1 : Nat) : Int) * d)).length = steps.length then
        .ok ((resample d g (ordered rows start)).filter fun r : Row => decide (r.time ≤ start + ((steps.length - 1 : Nat) : Int) * d))
      else .error .mismatch) = .ok out ↔ _
  have key : ∀ g first, 2 ≤ (ordered rows start).length → Grid (ordered rows start) first g →
      (((resample d g (ordered rows start)).filter fun r => decide (r.time ≤ start + ((steps.length - 1 : Nat) : Int) * d)).length = steps.length ↔
        first = start ∧ ((steps.length - 1 : Nat) : Int) * d ≤ (((ordered rows start).length - 1 : Nat) : Int) * g) := by
    intro g first hl hgrid
    have hg := gap_nonneg hgrid hl
    obtain ⟨hr1, hr2⟩ := resample_grid hgrid (by omega) hg hpos
    have hsf : start ≤ first := by
      have h0 := hgrid 0 _ (List.getElem?_eq_getElem (by omega : 0 < (ordered rows start).length))
      have hmem := List.mem_filter.1 (List.getElem_mem (by omega : 0 < (ordered rows start).length))
      have := hmem.2
      simp only [decide_eq_true_eq] at this
      push_cast at h0
      omega
    rw [slice_end hr1 hpos hsf hn, hr2]
    have hq : steps.length ≤ ((((ordered rows start).length - 1 : Nat) : Int) * g / d).toNat + 1 ↔
        ((steps.length - 1 : Nat) : Int) * d ≤ (((ordered rows start).length - 1 : Nat) : Int) * g := by
      rw [← Int.le_ediv_iff_mul_le hpos]
      have : 0 ≤ (((ordered rows start).length - 1 : Nat) : Int) * g / d := Int.ediv_nonneg (by positivity) hpos.le
      omega
    rw [hq]
  cases hgap : gap (ordered rows start) with
  | error e =>
    simp only [reduceCtorEq, false_iff]
    rintro ⟨g, m, hm, hreg, -⟩
    obtain ⟨-, hl, hgrid⟩ := regular_iff.1 hreg
    have := gap_ok.2 ⟨by omega, start, hgrid⟩
    rw [hgap] at this
    cases this
  | ok g =>
    simp only
    obtain ⟨hl, first, hgrid⟩ := gap_ok.1 hgap
    have hg := gap_nonneg hgrid hl
    constructor
    · intro h
      split at h
      · rename_i hlen
        obtain ⟨rfl, hc⟩ := (key g first hl hgrid).1 hlen
        refine ⟨g, (ordered rows first).length, hl, regular_iff.2 ⟨hg, rfl, hgrid⟩, hc, (resample_grid hgrid (by omega) hg hpos).1, ?_⟩
        exact (Except.ok.inj h).symm
      · cases h
    · rintro ⟨g', m, hm, hreg, hc, -, rfl⟩
      obtain ⟨-, hl', hgrid'⟩ := regular_iff.1 hreg
      have := gap_ok.2 ⟨by omega, start, hgrid'⟩
      rw [hgap] at this
      cases this
      rw [if_pos ((key g start hl hgrid').2 ⟨rfl, by rw [hl']; exact hc⟩)]

/-- **C85 (which series are accepted).** For steps of equal length, a series is accepted exactly when the rows from the first step on begin
with that step, are equally far apart, and reach the last step. -/
theorem C85_loads {steps : List Timestep} {start d : Int} (he : Even steps start d) (rows : List Row) :
    (∃ out, align steps rows = .ok out) ↔
      ∃ g m, 2 ≤ m ∧ Regular rows start start g m ∧ ((steps.length - 1 : Nat) : Int) * d ≤ ((m - 1 : Nat) : Int) * g := by
  constructor
  · rintro ⟨out, h⟩
    obtain ⟨g, m, h1, h2, h3, -⟩ := (align_ok he).1 h
    exact ⟨g, m, h1, h2, h3⟩
  · rintro ⟨g, m, h1, h2, h3⟩
    obtain ⟨hg, hl, hgrid⟩ := regular_iff.1 h2
    exact ⟨_, (align_ok he).2 ⟨g, m, h1, h2, h3, (resample_grid hgrid (by omega) hg he.pos).1, rfl⟩⟩

/-- **C85 (rows are steps).** There is one row for each step, with the date of that step. -/
theorem C85_rows {steps : List Timestep} {start d : Int} (he : Even steps start d) {rows out : List Row} (h : align steps rows = .ok out) :
    out.length = steps.length ∧ ∀ (k : Nat) t r, steps[k]? = some t → out[k]? = some r → r.time = stepTime t.date := by
  obtain ⟨g, m, hm, hreg, hc, hgrid, rfl⟩ := (align_ok he).1 h
  obtain ⟨hg, hl, hgr⟩ := regular_iff.1 hreg
  have hn : 0 < steps.length := List.length_pos_iff.2 he.some_step
  have hlen := (slice_end hgrid he.pos (le_refl _) hn).2 ⟨rfl, by
    rw [(resample_grid hgr (by omega) hg he.pos).2, hl]
    have : ((steps.length - 1 : Nat) : Int) ≤ ((m - 1 : Nat) : Int) * g / d := (Int.le_ediv_iff_mul_le he.pos).2 hc
    omega⟩
  refine ⟨hlen, ?_⟩
  intro k t r ht hr
  have hk : k < steps.length := (List.getElem?_eq_some_iff.1 ht).1
  rw [slice_take hgrid he.pos hn k hk] at hr
  rw [hgrid k r hr, he.times k t ht]

theorem mem_ordered {rows : List Row} {start : Int} {r : Row} : r ∈ ordered rows start ↔ r ∈ rows ∧ start ≤ r.time := by
  rw [(ordered_perm rows start).mem_iff, since, List.mem_filter]
  simp

theorem grid_inj {l : List Row} {first g : Int} (h : Grid l first g) (hg : 0 < g) {x y : Row} (hx : x ∈ l) (hy : y ∈ l) (ht : x.time = y.time) : x = y := by
  obtain ⟨i, hi⟩ := List.mem_iff_getElem?.1 hx
  obtain ⟨j, hj⟩ := List.mem_iff_getElem?.1 hy
  have h1 := h i x hi
  have h2 := h j y hj
  have : (i : Int) * g = j * g := by linarith
  have := mul_right_cancel₀ hg.ne' this
  have hij : i = j := by exact_mod_cast this
  subst hij
  rw [hi] at hj
  exact Option.some.inj hj

/-- **C85 (same steps).** If the series has the steps of the model, the value for a step is the value of the row with its date. -/
theorem C85_same {steps : List Timestep} {start d : Int} (he : Even steps start d) {rows out : List Row} (h : align steps rows = .ok out)
    {m : Nat} (hm : 2 ≤ m) (hr : Regular rows start start d m) (k : Nat) (t : Timestep) (ht : steps[k]? = some t) :
    ∃ x ∈ rows, x.time = stepTime t.date ∧ out[k]? = some x ∧ ∀ y ∈ rows, y.time = stepTime t.date → y = x := by
  obtain ⟨g, m', hm', hreg, hc, hgrid, rfl⟩ := (align_ok he).1 h
  obtain ⟨-, hl, hgr⟩ := regular_iff.1 hr
  obtain ⟨-, hl', hgr'⟩ := regular_iff.1 hreg
  obtain rfl : g = d := by
    have := (gap_ok.2 ⟨by omega, _, hgr⟩).symm.trans (gap_ok.2 ⟨by omega, _, hgr'⟩)
    exact (Except.ok.inj this).symm
  have hres : resample g g (ordered rows start) = ordered rows start := by simp [resample]
  rw [hres] at hgrid ⊢
  have hn : 0 < steps.length := List.length_pos_iff.2 he.some_step
  have hk : k < steps.length := (List.getElem?_eq_some_iff.1 ht).1
  have hkl : k < (ordered rows start).length := by
    have := le_of_mul_le_mul_right hc he.pos
    omega
  have hx := List.getElem?_eq_getElem hkl
  have hxm := mem_ordered.1 (List.getElem_mem hkl)
  refine ⟨(ordered rows start)[k], hxm.1, ?_, (slice_take hgrid he.pos hn k hk _).2 hx, ?_⟩
  · rw [hgr k _ hx, he.times k t ht]
  · intro y hy hyt
    have hyt' := hyt
    rw [he.times k t ht] at hyt'
    refine grid_inj hgr he.pos (mem_ordered.2 ⟨hy, ?_⟩) (List.getElem_mem hkl) ?_
    · rw [hyt']
      have : (0 : Int) ≤ k * g := mul_nonneg (by omega) he.pos.le
      omega
    · rw [hyt', hgr k _ hx]

theorem mean_average (l : List (Option ℚ)) : Average (l.filterMap id) (mean l) := by
  unfold mean
  cases h : l.filterMap id with
  | nil => exact Or.inl ⟨rfl, rfl⟩
  | cons v vs =>
    refine Or.inr ⟨by simp, _, rfl, ?_⟩
    have : ((v :: vs).length : ℚ) ≠ 0 := by simp only [List.length_cons]; positivity
    field_simp

theorem average_perm {l l' : List ℚ} {v : Option ℚ} (h : l.Perm l') (ha : Average l v) : Average l' v := by
  unfold Average at *
  rcases ha with ⟨rfl, rfl⟩ | ⟨h1, x, rfl, h2⟩
  · exact Or.inl ⟨by simpa using h, rfl⟩
  · refine Or.inr ⟨?_, x, rfl, ?_⟩
    · rintro rfl; exact h1 (by simpa using h)
    · rw [← h.length_eq, h2, h.sum_eq]

/-- **C85 (finer series).** If the rows of the series are closer than the steps, the value for a step is the average of the values from its
date to that of the next. -/
theorem C85_finer {steps : List Timestep} {start d : Int} (he : Even steps start d) {rows out : List Row} (h : align steps rows = .ok out)
    {m : Nat} (hm : 2 ≤ m) {g : Int} (hr : Regular rows start start g m) (hgd : g < d) (k : Nat) (t : Timestep) (ht : steps[k]? = some t) :
    ∃ r, out[k]? = some r ∧ Average ((between rows (stepTime t.date) (stepTime t.date + d)).filterMap (·.value)) r.value := by
  obtain ⟨g', m', hm', hreg, hc, hgrid, rfl⟩ := (align_ok he).1 h
  obtain ⟨hg, hl, hgr⟩ := regular_iff.1 hr
  obtain ⟨-, hl', hgr'⟩ := regular_iff.1 hreg
  obtain rfl : g' = g := by
    have := (gap_ok.2 ⟨by omega, _, hgr⟩).symm.trans (gap_ok.2 ⟨by omega, _, hgr'⟩)
    exact (Except.ok.inj this).symm
  have hn : 0 < steps.length := List.length_pos_iff.2 he.some_step
  have hk : k < steps.length := (List.getElem?_eq_some_iff.1 ht).1
  have hres : resample d g' (ordered rows start) = _ := (if_pos hgd).trans (downsample_eq hgr (by omega) hg he.pos hgd.le)
  rw [hres] at hgrid ⊢
  have hkq : k < (((ordered rows start).length - 1 : Nat) * g' / d).toNat + 1 := by
    have : ((steps.length - 1 : Nat) : Int) ≤ ((m' - 1 : Nat) : Int) * g' / d := (Int.le_ediv_iff_mul_le he.pos).2 hc
    rw [hl']
    omega
  have hat := (List.getElem?_map ..).trans (congrArg (Option.map fun (k : Nat) => (⟨start + k * d,
    mean (((ordered rows start).filter fun x => decide (start + k * d ≤ x.time) && decide (x.time < start + k * d + d)).map (·.value))⟩ : Row))
    (List.getElem?_range hkq))
  refine ⟨_, (slice_take hgrid he.pos hn k hk _).2 hat, ?_⟩
  simp only
  have := mean_average (((ordered rows start).filter fun x => decide (start + (k : Int) * d ≤ x.time) && decide (x.time < start + (k : Int) * d + d)).map (·.value))
  rw [List.filterMap_map] at this
  refine average_perm ?_ this
  refine List.Perm.filterMap _ ?_
  refine ((ordered_perm rows start).filter _).trans ?_
  unfold since between
  rw [List.filter_filter, he.times k t ht]
  refine List.Perm.of_eq (List.filter_congr ?_)
  intro x _
  have hk0 : (0 : Int) ≤ k * d := mul_nonneg (by omega) he.pos.le
  by_cases h1 : start + (k : Int) * d ≤ x.time <;> by_cases h2 : x.time < start + (k : Int) * d + d <;>
    by_cases h3 : start ≤ x.time <;> simp [h1, h2, h3]; omega

/-- **C85 (coarser series).** If the rows of the series are further apart than the steps, by a multiple of their length, the value for a step is
the latest number up to its date. -/
theorem C85_coarser_partial {steps : List Timestep} {start d : Int} (he : Even steps start d) {rows out : List Row} (h : align steps rows = .ok out)
    {m : Nat} (hm : 2 ≤ m) {g : Int} (hr : Regular rows start start g m) (hgd : d < g) (hdvd : d ∣ g) (k : Nat) (t : Timestep) (ht : steps[k]? = some t) :
    ∃ r, out[k]? = some r ∧ Latest rows start (stepTime t.date) r.value := by
  have hpos := he.pos
  obtain ⟨g', m', hm', hreg, hc, hgrid, rfl⟩ := (align_ok he).1 h
  obtain ⟨hg, hl, hgr⟩ := regular_iff.1 hr
  obtain ⟨-, hl', hgr'⟩ := regular_iff.1 hreg
  obtain rfl : g' = g := by
    have := (gap_ok.2 ⟨by omega, _, hgr⟩).symm.trans (gap_ok.2 ⟨by omega, _, hgr'⟩)
    exact (Except.ok.inj this).symm
  have hn : 0 < steps.length := List.length_pos_iff.2 he.some_step
  have hk : k < steps.length := (List.getElem?_eq_some_iff.1 ht).1
  have hres : resample d g' (ordered rows start) = _ := ((if_neg (by omega)).trans (if_pos hgd)).trans (upsample_eq hgr (by omega))
  rw [hres] at hgrid ⊢
  generalize hM : (((ordered rows start).length - 1 : Nat) * g' / d).toNat + 1 = M at *
  have hkM : k < M := by
    have : ((steps.length - 1 : Nat) : Int) ≤ ((m' - 1 : Nat) : Int) * g' / d := (Int.le_ediv_iff_mul_le he.pos).2 hc
    rw [hl'] at hM
    omega
  have hkl : k < (fill none (joined d start M (ordered rows start))).length := by rw [fill_length]; simpa [joined] using hkM
  have hx := List.getElem?_eq_getElem hkl
  refine ⟨_, (slice_take hgrid he.pos hn k hk _).2 hx, ?_⟩
  rw [he.times k t ht]
  -- a row of the series up to this step is a row of the joined frame
  have hin : ∀ y ∈ rows, start ≤ y.time → y.time ≤ start + (k : Int) * d → ∃ j : Nat, j ≤ k ∧ y.time = start + (j : Int) * d ∧
      (joined d start M (ordered rows start))[j]? = some y := by
    intro y hy h1 h2
    have hyo := mem_ordered.2 ⟨hy, h1⟩
    obtain ⟨i, hi⟩ := List.mem_iff_getElem?.1 hyo
    have hyt := hgr i y hi
    obtain ⟨q, hq⟩ := hdvd
    have hq0 : 0 < q := by
      by_contra hcq
      have := mul_le_mul_of_nonneg_left (show q ≤ 0 by omega) he.pos.le
      omega
    have hjt : y.time = start + ((i * q.toNat : Nat) : Int) * d := by
      rw [hyt, hq]
      push_cast
      rw [Int.toNat_of_nonneg hq0.le]
      ring
    have hjk : i * q.toNat ≤ k := by
      rw [hjt] at h2
      have : ((i * q.toNat : Nat) : Int) * d ≤ k * d := by linarith
      have := le_of_mul_le_mul_right this he.pos
      exact_mod_cast this
    refine ⟨i * q.toNat, hjk, hjt, ?_⟩
    rw [joined, List.getElem?_map, List.getElem?_range (by omega)]
    simp only [Option.map_some, Option.some.injEq]
    have hfind : (ordered rows start).find? (fun x => x.time == start + ((i * q.toNat : Nat) : Int) * d) = some y := by
      cases hf : (ordered rows start).find? (fun x => x.time == start + ((i * q.toNat : Nat) : Int) * d) with
      | none =>
        have := List.find?_eq_none.1 hf y hyo
        simp [hjt] at this
      | some z =>
        have hz1 := List.find?_some hf
        have hz2 := List.mem_of_find?_eq_some hf
        rw [grid_inj hgr (by omega) hz2 hyo]
        simp only [beq_iff_eq] at hz1
        rw [hz1, hjt]
    rw [hfind]
    simp only [Option.bind_some]
    rw [← hjt]
  have hout : ∀ (j : Nat) (x : Row), (joined d start M (ordered rows start))[j]? = some x → x.time = start + (j : Int) * d ∧
      (x.value ≠ none → x ∈ rows) := by
    intro j x hxj
    rw [joined, List.getElem?_map] at hxj
    by_cases hj : j < M
    · rw [List.getElem?_range hj] at hxj
      simp only [Option.map_some, Option.some.injEq] at hxj
      subst hxj
      refine ⟨rfl, ?_⟩
      intro hne
      cases hf : (ordered rows start).find? (fun x => x.time == start + (j : Int) * d) with
      | none => simp only [hf] at hne; exact absurd rfl hne
      | some z =>
        simp only [Option.bind_some]
        have hz1 := List.find?_some hf
        simp only [beq_iff_eq] at hz1
        rw [← hz1]
        exact (mem_ordered.1 (List.mem_of_find?_eq_some hf)).1
    · rw [List.getElem?_eq_none (by rw [List.length_range]; omega)] at hxj
      cases hxj
  rcases fill_value _ _ _ _ hx with ⟨h1, -, h3⟩ | ⟨v, h1, h2, h3⟩ | ⟨v, j, x, h1, h2, h3, h4, h5⟩
  · rw [h1]
    intro r hr1 hr2 hr3
    obtain ⟨j, hj, -, hjoin⟩ := hin r hr1 hr2 hr3
    exact h3 j r hj hjoin
  · cases h2
  · rw [h1]
    obtain ⟨hxt, hxm⟩ := hout j x h3
    refine ⟨x, hxm (by rw [h4]; simp), ?_, ?_, h4, ?_⟩
    · rw [hxt]
      have : (0 : Int) ≤ j * d := mul_nonneg (by omega) he.pos.le
      omega
    · rw [hxt]
      have : (j : Int) ≤ k := by omega
      have := mul_le_mul_of_nonneg_right this he.pos.le
      omega
    · intro y hy hxy hyk
      rw [hxt] at hxy
      have hj0 : (0 : Int) ≤ j * d := mul_nonneg (by omega) he.pos.le
      obtain ⟨j', hj', hyt, hjoin⟩ := hin y hy (by omega) hyk
      rw [hyt] at hxy
      have : (j : Int) < j' := lt_of_mul_lt_mul_right (by linarith : (j : Int) * d < j' * d) he.pos.le
      exact h5 j' y (by omega) hj' hjoin

/-- **C85 (uneven series, refuted).** A series whose rows are not equally far apart is not refused with an error: loading panics. A series with
fewer than two rows from the first step on is refused. -/
theorem C85_uneven_refuted {steps : List Timestep} {start d : Int} (he : Even steps start d) (rows : List Row) :
    ((since rows start).length < 2 → align steps rows = .error .durationNotFound) ∧
    (2 ≤ (since rows start).length → (∀ first g m, ¬ Regular rows start first g m) → align steps rows = .error .panic) := by
  have hn : 0 < steps.length := List.length_pos_iff.2 he.some_step
  have hhead : steps.head? = some steps[0] := by rw [List.head?_eq_getElem?, List.getElem?_eq_getElem hn]
  have hlast : steps.getLast? = some steps[steps.length - 1] := by rw [List.getLast?_eq_getElem?, List.getElem?_eq_getElem (by omega)]
  have ht0 : stepTime steps[0].date = start := by simpa using he.times 0 _ (List.getElem?_eq_getElem hn)
  have hlen := (ordered_perm rows start).length_eq
  have hal : ∀ e, gap (ordered rows start) = .error e → align steps rows = .error e := by
    intro e hge
    unfold align
    rw [hhead, hlast]
    simp only [ht0]
    have : gap ((sortRows rows).filter fun r => decide (start ≤ r.time)) = .error e := hge
    rw [this]
  constructor
  · intro h
    exact hal _ (gap_error.2 (Or.inl ⟨by omega, rfl⟩))
  · intro h hno
    refine hal _ (gap_error.2 (Or.inr ⟨by omega, rfl, ?_⟩))
    intro first g hgrid
    exact hno first g _ (regular_iff.2 ⟨gap_nonneg hgrid (by omega), rfl, hgrid⟩)

end Verif.Timeseries
