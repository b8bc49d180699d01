import Verif.Model.Timestep
import Verif.Lemmas.Calendar
import Mathlib.Data.List.Basic
import Mathlib.Tactic.FieldSimp

/-! # C01, C02, C03, C52: time steps -/

namespace Verif.Time

open Verif.Calendar

/-! ## Lemmas about the loops -/

/-- What the fixed loop returns from step `k` on. -/
theorem fixedLoop_spec (stop : DateTime) (hstop : stop.Valid) (D : Nat) (hD : 0 < D) :
    ∀ (fuel : Nat) (cur : Timestep), cur.date.Valid → cur.duration = D →
      (stop.instant - cur.date.instant + 1).toNat + 1 ≤ fuel →
      ∃ L, fixedLoop stop D fuel cur = some L ∧
        ∀ (i : Nat) (t : Timestep), L[i]? = some t ↔
          t.date.Valid ∧ t.date.instant = cur.date.instant + i * D ∧ t.date.instant ≤ stop.instant ∧
          t.index = cur.index + i ∧ t.duration = D := by
  intro fuel
  induction fuel with
  | zero => intro cur _ _ h; omega
  | succ fuel ih =>
    intro cur hv hd hf
    unfold fixedLoop
    by_cases hle : cur.date.le stop
    · rw [if_pos hle]
      rw [le_iff_instant hv hstop] at hle
      have hadd : (cur.add D).date.instant = cur.date.instant + D := instant_add hv D
      have hvn : (cur.add D).date.Valid := add_valid hv D
      by_cases hf' : (stop.instant - (cur.add D).date.instant + 1).toNat + 1 ≤ fuel
      · obtain ⟨L, hL, hspec⟩ := ih (cur.add D) hvn rfl hf'
        refine ⟨cur :: L, by rw [hL]; rfl, ?_⟩
        intro i t
        cases i with
        | zero =>
          simp only [List.getElem?_cons_zero, Option.some.injEq]
          constructor
          · rintro rfl
            exact ⟨hv, by simp, hle, by simp, hd⟩
          · rintro ⟨h1, h2, h3, h4, h5⟩
            have : cur.date = t.date := instant_inj hv h1 (by rw [h2]; simp)
            cases cur; cases t; simp_all
        | succ i =>
          rw [List.getElem?_cons_succ, hspec i t, hadd]
          have e1 : (cur.add D).index = cur.index + 1 := rfl
          rw [e1]
          push_cast
          constructor
          · rintro ⟨h1, h2, h3, h4, h5⟩
            exact ⟨h1, by rw [h2]; ring, h3, by omega, h5⟩
          · rintro ⟨h1, h2, h3, h4, h5⟩
            exact ⟨h1, by rw [h2]; ring, h3, by omega, h5⟩
      · exact absurd hf' (by rw [hadd]; omega)
    · rw [if_neg hle]
      rw [le_iff_instant hv hstop] at hle
      refine ⟨[], rfl, ?_⟩
      intro i t
      simp only [List.getElem?_nil, reduceCtorEq, false_iff]
      rintro ⟨_, h2, h3, _⟩
      have : (0 : Int) ≤ i * D := by positivity
      omega

theorem freqLoop_spec (start stop : DateTime) (hstart : start.Valid) (hstop : stop.Valid) (span : Span)
    (hs : 0 < span.months ∨ 0 < span.weeks ∨ 0 < span.days ∨ 0 < span.ns) :
    ∀ (fuel : Nat) (n : Nat),
      (stop.instant - (start.addSpan (span.mul n)).instant + 1).toNat + 1 ≤ fuel →
      ∃ L, freqLoop start stop span fuel (start.addSpan (span.mul n)) n = some L ∧
        ∀ (i : Nat) (t : Timestep), L[i]? = some t ↔
          t.date = start.addSpan (span.mul (n + i)) ∧ t.date.instant ≤ stop.instant ∧ t.index = n + i ∧
          t.date.instant + t.duration = (start.addSpan (span.mul (n + i + 1))).instant := by
  intro fuel
  induction fuel with
  | zero => intro n h; omega
  | succ fuel ih =>
    intro n hf
    have hv := addSpan_valid hstart (span.mul n)
    have hv' := addSpan_valid hstart (span.mul (n + 1))
    have hlt := addSpan_strictMono hstart hs (Nat.lt_succ_self n)
    unfold freqLoop
    by_cases hle : (start.addSpan (span.mul n)).le stop
    · rw [if_pos hle]
      rw [le_iff_instant hv hstop] at hle
      obtain ⟨L, hL, hspec⟩ := ih (n + 1) (by simp only [Nat.succ_eq_add_one] at hlt; omega)
      simp only
      refine ⟨_ :: L, by rw [hL]; rfl, ?_⟩
      intro i t
      cases i with
      | zero =>
        simp only [List.getElem?_cons_zero, Option.some.injEq]
        constructor
        · rintro rfl
          refine ⟨rfl, hle, by simp, ?_⟩
          simp [DateTime.since]
        · rintro ⟨h1, h2, h3, h4⟩
          cases t
          simp only [Nat.add_zero] at *
          subst h1; subst h3
          congr 1
          simp only [DateTime.since]
          omega
      | succ i =>
        rw [List.getElem?_cons_succ, hspec i t]
        have e : n + 1 + i = n + (i + 1) := by omega
        rw [e]
    · rw [if_neg hle]
      rw [le_iff_instant hv hstop] at hle
      refine ⟨[], rfl, ?_⟩
      intro i t
      simp only [List.getElem?_nil, reduceCtorEq, false_iff]
      rintro ⟨h1, h2, _⟩
      rw [h1] at h2
      rcases Nat.eq_zero_or_pos i with h0 | h0
      · subst h0; simp at h2; omega
      · have := addSpan_strictMono hstart hs (a := n) (b := n + i) (by omega)
        omega

theorem mul_zero_span (s : Span) : s.mul 0 = ⟨0, 0, 0, 0⟩ := by simp [Span.mul]

theorem addSpan_zero {t : DateTime} (h : t.Valid) : t.addSpan ⟨0, 0, 0, 0⟩ = t := by
  apply instant_inj (addSpan_valid h _) h
  rw [instant_addSpan h]
  simp [addMonths_zero h.1, DateTime.instant]

theorem mkSpan_eq (months weeks days ns : Nat) : mkSpan months weeks days ns = ⟨months, weeks, days, ns⟩ := by
  unfold mkSpan
  split
  · rename_i h; obtain ⟨_, h1, h2, h3⟩ := h; simp [h1, h2, h3]
  · split
    · rename_i h; obtain ⟨_, h1, h2, h3⟩ := h; simp [h1, h2, h3]
    · split
      · rename_i h; obtain ⟨_, h1, h2, h3⟩ := h; simp [h1, h2, h3]
      · rfl

/-! ## C01 -/

/-- Specification: the step length in nanoseconds that the user asked for. -/
def fixedLength : TimestepDuration → Option Nat
  | .hours n => some (n * 3600000000000)
  | .days n => some (n * 86400000000000)
  | .frequency .. => none

/-- **C01.** A fixed-length time domain: an error iff the start is after the end; otherwise position `i` of the result
is exactly the step that starts `i` durations after the start, for every `i` for which that is not after the end. -/
theorem C01_fixed_time_domain (start stop : DateTime) (hstart : start.Valid) (hstop : stop.Valid)
    (d : TimestepDuration) (D : Nat) (hd : fixedLength d = some D) (hpos : 0 < D) :
    (stop.instant < start.instant → build start stop d = .error .noTimesteps) ∧
    (start.instant ≤ stop.instant → ∃ L, build start stop d = .ok L ∧
      ∀ (i : Nat) (t : Timestep), L[i]? = some t ↔
        t.date.Valid ∧ t.date.instant = start.instant + i * D ∧ t.date.instant ≤ stop.instant ∧
        t.index = i ∧ t.duration = D) := by
  have key : ∃ L, timesteps start stop d = .ok L ∧
      ∀ (i : Nat) (t : Timestep), L[i]? = some t ↔
        t.date.Valid ∧ t.date.instant = start.instant + i * D ∧ t.date.instant ≤ stop.instant ∧
        t.index = i ∧ t.duration = D := by
    have hloop := fixedLoop_spec stop hstop D hpos ((stop.instant - start.instant).toNat + 2)
      { date := start, index := 0, duration := D } hstart rfl (by simp only; omega)
    obtain ⟨L, hL, hspec⟩ := hloop
    refine ⟨L, ?_, fun i t => by rw [hspec i t]; simp⟩
    cases d with
    | hours n =>
      simp only [fixedLength, Option.some.injEq] at hd
      simp only [timesteps, fixedSteps]
      have e : n * (3600 * 1000000000) = D := by omega
      rw [e, hL]
    | days n =>
      simp only [fixedLength, Option.some.injEq] at hd
      simp only [timesteps, fixedSteps]
      have e : n * 24 * (3600 * 1000000000) = D := by rw [← hd, Nat.mul_assoc]
      rw [e, hL]
    | frequency => simp [fixedLength] at hd
  obtain ⟨L, hL, hspec⟩ := key
  constructor
  · intro hlt
    have : L = [] := by
      cases L with
      | nil => rfl
      | cons t L =>
        have := (hspec 0 t).1 rfl
        obtain ⟨_, h2, h3, _⟩ := this
        simp at h2
        omega
    simp [build, hL, this]
  · intro hle
    refine ⟨L, ?_, hspec⟩
    have : L[0]? = some { date := start, index := 0, duration := D } :=
      (hspec 0 _).2 ⟨hstart, by simp, hle, rfl, rfl⟩
    cases L with
    | nil => simp at this
    | cons t L => simp [build, hL]

/-- The steps of the witness: 5 to 8 January 2021 every two days gives two steps. -/
example : build ⟨⟨2021, 1, 5⟩, 0⟩ ⟨⟨2021, 1, 8⟩, 0⟩ (.days 2) =
    .ok [⟨⟨⟨2021, 1, 5⟩, 0⟩, 0, 172800000000000⟩, ⟨⟨⟨2021, 1, 7⟩, 0⟩, 1, 172800000000000⟩] := by decide +kernel

/-- Hypotheses of C01 hold for a step of 36 hours over the end of February. -/
example : (⟨⟨2020, 2, 28⟩, 0⟩ : DateTime).Valid ∧ (⟨⟨2020, 3, 2⟩, 0⟩ : DateTime).Valid ∧
    fixedLength (.hours 36) = some 129600000000000 := ⟨by decide, by decide, rfl⟩

/-- **C01**, number of steps: `⌊(end - start) / duration⌋ + 1`. -/
theorem C01_fixed_count (start stop : DateTime) (hstart : start.Valid) (hstop : stop.Valid)
    (d : TimestepDuration) (D : Nat) (hd : fixedLength d = some D) (hpos : 0 < D)
    (hle : start.instant ≤ stop.instant) :
    ∃ L, build start stop d = .ok L ∧ (L.length : Int) = (stop.instant - start.instant) / D + 1 := by
  obtain ⟨L, hL, hspec⟩ := (C01_fixed_time_domain start stop hstart hstop d D hd hpos).2 hle
  refine ⟨L, hL, ?_⟩
  have hmem : ∀ i : Nat, i < L.length ↔ start.instant + i * D ≤ stop.instant := by
    intro i
    constructor
    · intro h
      have := (hspec i L[i]).1 (List.getElem?_eq_getElem h)
      obtain ⟨_, h2, h3, _⟩ := this
      omega
    · intro h
      have hv := add_valid hstart (i * D)
      have := (hspec i ⟨start.add (i * D), i, D⟩).2
        ⟨hv, by simp [instant_add hstart], by rw [instant_add hstart]; push_cast; exact h, rfl, rfl⟩
      exact (List.getElem?_eq_some_iff.1 this).1
  have hDpos : (0 : Int) < D := by exact_mod_cast hpos
  obtain ⟨q, hq⟩ : ∃ q, q = (stop.instant - start.instant) / (D : Int) := ⟨_, rfl⟩
  rw [← hq]
  have hq0 : 0 ≤ q := hq ▸ Int.ediv_nonneg (by omega) hDpos.le
  have h1 : q.toNat < L.length := by
    rw [hmem]
    have := Int.ediv_mul_le (stop.instant - start.instant) (b := (D : Int)) (by omega)
    have e : ((q.toNat : Nat) : Int) = q := Int.toNat_of_nonneg hq0
    rw [e, hq]; omega
  have h2 : ¬ (q.toNat + 1 < L.length) := by
    rw [hmem]
    have := Int.lt_ediv_add_one_mul_self (stop.instant - start.instant) hDpos
    have e : ((q.toNat + 1 : Nat) : Int) = q + 1 := by push_cast; rw [Int.toNat_of_nonneg hq0]
    rw [e, hq]; omega
  omega

/-! ## C02 -/

/-- **C02**, rejection of a zero or negative frequency. -/
theorem C02_non_positive_rejected (start stop : DateTime) (neg : Bool) (mo w dd ns : Nat)
    (h : neg = true ∨ (mo = 0 ∧ w = 0 ∧ dd = 0 ∧ ns = 0)) :
    build start stop (.frequency neg mo w dd ns) = .error .nonPositive := by
  simp only [build, timesteps, freqSteps]
  rcases h with h | ⟨h1, h2, h3, h4⟩
  · simp [h]
  · simp [h1, h2, h3, h4]

example : build ⟨⟨2021, 1, 1⟩, 0⟩ ⟨⟨2022, 1, 1⟩, 0⟩ (.frequency true 1 0 0 0) = .error .nonPositive :=
  C02_non_positive_rejected _ _ _ _ _ _ _ (.inl rfl)

/-- **C02.** For a positive frequency position `i` of the result is exactly the step that starts at
`start + i * frequency` (all units counted from the start) and ends where step `i + 1` would start, for every `i` for
which that start is not after the end. -/
theorem C02_frequency_time_domain (start stop : DateTime) (hstart : start.Valid) (hstop : stop.Valid)
    (mo w dd ns : Nat) (hs : 0 < mo ∨ 0 < w ∨ 0 < dd ∨ 0 < ns) :
    (stop.instant < start.instant → build start stop (.frequency false mo w dd ns) = .error .noTimesteps) ∧
    (start.instant ≤ stop.instant → ∃ L, build start stop (.frequency false mo w dd ns) = .ok L ∧
      ∀ (i : Nat) (t : Timestep), L[i]? = some t ↔
        t.date = start.addSpan ⟨mo * i, w * i, dd * i, ns * i⟩ ∧ t.date.instant ≤ stop.instant ∧ t.index = i ∧
        t.date.instant + t.duration =
          (start.addSpan ⟨mo * (i + 1), w * (i + 1), dd * (i + 1), ns * (i + 1)⟩).instant) := by
  have h0 : start.addSpan (Span.mul ⟨mo, w, dd, ns⟩ 0) = start := by rw [mul_zero_span, addSpan_zero hstart]
  have hloop := freqLoop_spec start stop hstart hstop ⟨mo, w, dd, ns⟩ hs ((stop.instant - start.instant).toNat + 2) 0
    (by rw [h0]; omega)
  rw [h0] at hloop
  obtain ⟨L, hL, hspec⟩ := hloop
  have hz : (mo == 0 && w == 0 && dd == 0 && ns == 0) = false := by
    rw [Bool.eq_false_iff]
    simp
    omega
  have hts : timesteps start stop (.frequency false mo w dd ns) = .ok L := by
    simp only [timesteps, freqSteps]
    rw [hz, mkSpan_eq]
    simp [hL]
  have hspec' : ∀ (i : Nat) (t : Timestep), L[i]? = some t ↔
        t.date = start.addSpan ⟨mo * i, w * i, dd * i, ns * i⟩ ∧ t.date.instant ≤ stop.instant ∧ t.index = i ∧
        t.date.instant + t.duration =
          (start.addSpan ⟨mo * (i + 1), w * (i + 1), dd * (i + 1), ns * (i + 1)⟩).instant := by
    intro i t
    rw [hspec i t]
    simp [Span.mul]
  constructor
  · intro hlt
    have : L = [] := by
      cases L with
      | nil => rfl
      | cons t L =>
        have := (hspec 0 t).1 rfl
        obtain ⟨h2, h3, _⟩ := this
        rw [h2] at h3
        simp only [Nat.add_zero] at h3
        rw [h0] at h3
        omega
    simp [build, hts, this]
  · intro hle
    refine ⟨L, ?_, hspec'⟩
    have : L[0]? = some ⟨start, 0,
        (start.addSpan (Span.mul ⟨mo, w, dd, ns⟩ 1)).instant - start.instant⟩ :=
      (hspec 0 _).2 ⟨by simp [h0], hle, rfl, by simp⟩
    cases L with
    | nil => simp at this
    | cons t L => simp [build, hts]

/-- Monthly steps from 31 January 2021: the day is clipped in February but not in March. -/
example : build ⟨⟨2021, 1, 31⟩, 0⟩ ⟨⟨2021, 3, 31⟩, 0⟩ (.frequency false 1 0 0 0) =
    .ok [⟨⟨⟨2021, 1, 31⟩, 0⟩, 0, 28 * 86400000000000⟩, ⟨⟨⟨2021, 2, 28⟩, 0⟩, 1, 31 * 86400000000000⟩,
         ⟨⟨⟨2021, 3, 31⟩, 0⟩, 2, 30 * 86400000000000⟩] := by decide +kernel

/-- **C02**, tiling: the first step starts at the start date, each step ends where the next one starts, durations are
positive, and the last step ends after the end date. -/
theorem C02_tiling (start stop : DateTime) (hstart : start.Valid) (hstop : stop.Valid)
    (mo w dd ns : Nat) (hs : 0 < mo ∨ 0 < w ∨ 0 < dd ∨ 0 < ns) (hle : start.instant ≤ stop.instant) :
    ∃ L, build start stop (.frequency false mo w dd ns) = .ok L ∧
      (∀ t, L.head? = some t → t.date = start) ∧
      (∀ (i : Nat) (a b : Timestep), L[i]? = some a → L[i + 1]? = some b →
        a.date.instant + a.duration = b.date.instant) ∧
      (∀ t ∈ L, 0 < t.duration) ∧
      (∀ t, L.getLast? = some t → stop.instant < t.date.instant + t.duration) := by
  obtain ⟨L, hL, hspec⟩ := (C02_frequency_time_domain start stop hstart hstop mo w dd ns hs).2 hle
  refine ⟨L, hL, ?_, ?_, ?_, ?_⟩
  · intro t ht
    rw [List.head?_eq_getElem?] at ht
    have := ((hspec 0 t).1 ht).1
    rw [this]
    exact addSpan_zero hstart
  · intro i a b ha hb
    obtain ⟨_, _, _, h1⟩ := (hspec i a).1 ha
    obtain ⟨h2, _⟩ := (hspec (i + 1) b).1 hb
    rw [h1, h2]
  · intro t ht
    obtain ⟨i, hi⟩ := List.mem_iff_getElem?.1 ht
    obtain ⟨h1, _, _, h4⟩ := (hspec i t).1 hi
    have := addSpan_strictMono hstart (s := ⟨mo, w, dd, ns⟩) hs (Nat.lt_succ_self i)
    simp only [Span.mul, Nat.succ_eq_add_one] at this
    rw [← h1] at this
    omega
  · intro t ht
    rw [List.getLast?_eq_getElem?] at ht
    by_contra hcon
    obtain ⟨h1, _, _, h4⟩ := (hspec _ t).1 ht
    have hb := (hspec (L.length - 1 + 1)
      { date := start.addSpan ⟨mo * (L.length - 1 + 1), w * (L.length - 1 + 1), dd * (L.length - 1 + 1),
          ns * (L.length - 1 + 1)⟩
        index := L.length - 1 + 1
        duration := (start.addSpan ⟨mo * (L.length - 1 + 1 + 1), w * (L.length - 1 + 1 + 1),
          dd * (L.length - 1 + 1 + 1), ns * (L.length - 1 + 1 + 1)⟩).instant -
          (start.addSpan ⟨mo * (L.length - 1 + 1), w * (L.length - 1 + 1), dd * (L.length - 1 + 1),
          ns * (L.length - 1 + 1)⟩).instant }).2 ⟨rfl, by simp only; omega, rfl, by simp only; omega⟩
    have := (List.getElem?_eq_some_iff.1 hb).1
    omega

/-- **C02**, anchoring: in a domain of `mo`-monthly steps the `i`-th step is in the month `i * mo` months after the
start month, on the start's day of the month or the last day of a shorter month, at the start's time of day. -/
theorem C02_month_anchor (start stop : DateTime) (hstart : start.Valid) (hstop : stop.Valid)
    (mo : Nat) (hs : 0 < mo) (L : List Timestep) (hL : build start stop (.frequency false mo 0 0 0) = .ok L)
    (i : Nat) (t : Timestep) (ht : L[i]? = some t) :
    t.date.date.year * 12 + t.date.date.month = start.date.year * 12 + start.date.month + i * mo ∧
    t.date.date.day = min start.date.day (daysInMonth t.date.date.year t.date.date.month) ∧
    t.date.ns = start.ns := by
  have hcase := C02_frequency_time_domain start stop hstart hstop mo 0 0 0 (.inl hs)
  have hle : start.instant ≤ stop.instant := by
    by_contra h
    rw [hcase.1 (by omega)] at hL
    cases hL
  obtain ⟨L', hL', hspec⟩ := hcase.2 hle
  rw [hL'] at hL
  cases hL
  obtain ⟨h1, _⟩ := (hspec i t).1 ht
  rw [h1]
  obtain ⟨⟨hm1, hm2, _⟩, hns⟩ := hstart
  unfold DateTime.addSpan DateTime.add
  have hns' : (start.ns + 0) / nsPerDay = 0 := Nat.div_eq_of_lt hns
  simp only [Nat.zero_mul, Nat.mul_zero, Nat.add_zero] at hns' ⊢
  rw [hns']
  simp only [Date.addDays, Date.addMonths]
  refine ⟨?_, trivial, Nat.mod_eq_of_lt hns⟩
  have : (i : Int) * mo = ((mo * i : Nat) : Int) := by push_cast; ring
  rw [this]
  generalize mo * i = k
  omega

/-- **C02**, uniform duration: the time domain reports a fixed duration iff all steps have it. -/
theorem C02_fixed_step_duration (L : List Timestep) (hL : L ≠ []) (d : Int) :
    fixedStepDuration L = some d ↔ ∀ t ∈ L, t.duration = d := by
  cases L with
  | nil => exact absurd rfl hL
  | cons a L =>
    unfold fixedStepDuration
    simp only [List.head?_cons, Option.map_some, Option.filter_eq_some_iff, Option.some.injEq, List.all_eq_true,
      beq_iff_eq]
    constructor
    · rintro ⟨h, h2⟩
      intro t ht
      rw [h2 t ht]
      try exact h
    · intro h
      have := h a (by simp)
      exact ⟨this, fun t ht => by rw [h t ht]; try exact this.symm⟩

example : fixedStepDuration [⟨⟨⟨2021, 1, 1⟩, 0⟩, 0, 31⟩, ⟨⟨⟨2021, 2, 1⟩, 0⟩, 1, 28⟩] = none := by decide

/-! ## C03 -/

/-- Specification: position of (month, day) in the 366-day calendar of a leap year, counted from zero. -/
def leapSlot (month day : Nat) : Nat :=
  [0, 31, 60, 91, 121, 152, 182, 213, 244, 274, 305, 335].getD (month - 1) 0 + day - 1

theorem daysBeforeMonth_table (y : Int) {m : Nat} (h1 : 1 ≤ m) (h2 : m ≤ 12) :
    daysBeforeMonth y m = [0, 31, 60, 91, 121, 152, 182, 213, 244, 274, 305, 335].getD (m - 1) 0 -
      (if isLeap y = false ∧ 3 ≤ m then 1 else 0) := by
  interval_cases m <;> by_cases h : isLeap y = true <;> simp [daysBeforeMonth, daysInMonth, h]

/-- **C03.** The index is the position of the month and day in a leap-year calendar, whatever the year. -/
theorem C03_index_is_leap_slot (d : Date) (h : d.Valid) : dayOfYearIndex d = leapSlot d.month d.day := by
  obtain ⟨y, m, dd⟩ := d
  obtain ⟨h1, h2, h3, h4⟩ := h
  simp only at h1 h2 h3 h4
  unfold dayOfYearIndex leapSlot Date.dayOfYear
  simp only
  rw [daysBeforeMonth_table y h1 h2]
  interval_cases m <;> by_cases hl : isLeap y = true <;> simp [hl, daysInMonth] at h4 ⊢ <;>
    first | omega | (split <;> omega)

/-- **C03.** The index is a valid position of a 366-entry profile, and two dates share an index iff they agree in month
and day. -/
theorem C03_index_leap_stable (a b : Date) (ha : a.Valid) (hb : b.Valid) :
    dayOfYearIndex a < 366 ∧
    (dayOfYearIndex a = dayOfYearIndex b ↔ a.month = b.month ∧ a.day = b.day) := by
  have ea := C03_index_is_leap_slot a ha
  have eb := C03_index_is_leap_slot b hb
  have hlt : ∀ d : Date, d.Valid → d.day ≤ daysInMonth 2000 d.month := by
    rintro ⟨y, m, dd⟩ ⟨h1, h2, h3, h4⟩
    simp only at *
    interval_cases m <;> by_cases hl : isLeap y = true <;>
      simp [hl, daysInMonth, show isLeap 2000 = true from rfl] at h4 ⊢ <;> omega
  have ha' := hlt a ha
  have hb' := hlt b hb
  obtain ⟨ya, ma, da⟩ := a
  obtain ⟨yb, mb, db⟩ := b
  obtain ⟨h1, h2, h3, -⟩ := ha
  obtain ⟨k1, k2, k3, -⟩ := hb
  rw [ea, eb]
  unfold leapSlot
  simp only at *
  constructor
  · interval_cases ma <;> simp [daysInMonth, show isLeap 2000 = true from rfl] at ha' ⊢ <;> omega
  · have e : ∀ (m d : Nat), 1 ≤ m → m ≤ 12 → 1 ≤ d →
        ([0, 31, 60, 91, 121, 152, 182, 213, 244, 274, 305, 335].getD (m - 1) 0 + d - 1 : Nat) + 1
          = Date.dayOfYear ⟨2000, m, d⟩ := by
      intro m d h1 h2 h3
      interval_cases m <;> simp [Date.dayOfYear, daysBeforeMonth, daysInMonth, show isLeap 2000 = true from rfl] <;> omega
    constructor
    · intro h
      have h' : Date.dayOfYear ⟨2000, ma, da⟩ = Date.dayOfYear ⟨2000, mb, db⟩ := by
        rw [← e ma da h1 h2 h3, ← e mb db k1 k2 k3, h]
      have := dayNumber_inj (a := ⟨2000, ma, da⟩) (b := ⟨2000, mb, db⟩) ⟨h1, h2, h3, ha'⟩ ⟨k1, k2, k3, hb'⟩
        (by simp [Date.dayNumber, h'])
      simpa using this
    · rintro ⟨rfl, rfl⟩; rfl

/-- **C03.** 29 February has its own slot, which no date of a common year uses. -/
theorem C03_leap_day_own_slot (d : Date) (h : d.Valid) : dayOfYearIndex d = 59 ↔ d.month = 2 ∧ d.day = 29 := by
  have := (C03_index_leap_stable d ⟨2000, 2, 29⟩ h (by decide)).2
  have e : dayOfYearIndex ⟨2000, 2, 29⟩ = 59 := by decide
  rw [e] at this
  exact this

example : (⟨2023, 3, 1⟩ : Date).Valid ∧ dayOfYearIndex ⟨2023, 3, 1⟩ = 60 ∧ dayOfYearIndex ⟨2024, 3, 1⟩ = 60 := by decide

/-- **C03.** The fractional day of the year lies in the slot of the day: index ≤ value < index + 1. -/
theorem C03_fractional (t : DateTime) (h : t.Valid) :
    (dayOfYearIndex t.date : ℚ) ≤ fractionalDayOfYear t ∧
    fractionalDayOfYear t < dayOfYearIndex t.date + 1 ∧
    (t.ns = 0 → fractionalDayOfYear t = dayOfYearIndex t.date) := by
  unfold fractionalDayOfYear
  have h2 : (t.ns : ℚ) < 86400 * 1000000000 := by
    have := h.2; unfold nsPerDay at this; exact_mod_cast this
  have h1 : (0 : ℚ) ≤ t.ns := by positivity
  have e : (t.ns : ℚ) / 1000000000 / 86400 = t.ns * (1 / 86400000000000) := by ring
  rw [e]
  refine ⟨by linarith, by linarith, ?_⟩
  · intro h0; simp [h0]

/-! ## C52: durations -/

/-- Specification: milliseconds denoted by a duration string. -/
def denote (l : List (Int × Unit')) : Int :=
  (l.map fun (n, u) => n * match u with
    | .d => 86400000 | .h => 3600000 | .m => 60000 | .s => 1000 | .ms => 1).sum

/-- **C52.** For a non-negative duration the duration string denotes its whole number of milliseconds. -/
theorem C52_duration_string (d : Int) (h : 0 ≤ d) :
    denote (durationTokens d) * 1000000 ≤ d ∧ d < denote (durationTokens d) * 1000000 + 1000000 := by
  have hm : 0 ≤ milliseconds d := Int.tdiv_nonneg h (by decide)
  have hd : milliseconds d = d / 1000000 := Int.tdiv_eq_ediv_of_nonneg h
  have key : denote (durationTokens d) = milliseconds d := by
    unfold durationTokens
    generalize milliseconds d = x at hm ⊢
    simp only [Int.tmod_eq_emod_of_nonneg hm, Int.tdiv_eq_ediv_of_nonneg hm]
    rw [Int.tdiv_eq_ediv_of_nonneg (Int.emod_nonneg x (by decide : (86400000 : Int) ≠ 0)),
      Int.tdiv_eq_ediv_of_nonneg (Int.emod_nonneg x (by decide : (3600000 : Int) ≠ 0)),
      Int.tdiv_eq_ediv_of_nonneg (Int.emod_nonneg x (by decide : (60000 : Int) ≠ 0))]
    unfold denote
    split_ifs <;> simp <;> omega
  rw [key, hd]
  omega

/-- **C52** fails for negative durations: the string of minus one day is empty. -/
theorem C52_negative_duration_refuted : ∃ d : Int, milliseconds d = -86400000 ∧ denote (durationTokens d) = 0 :=
  ⟨-86400000000000, by decide⟩

/-- **C52.** `whole_days` is the number of days iff the duration is a whole number of days. -/
theorem C52_whole_days (d n : Int) : wholeDays d = some n ↔ d = n * 86400000000000 := by
  unfold wholeDays fractionalDays
  rw [div_div]
  norm_num
  constructor
  · rintro ⟨h1, h2⟩
    have := Rat.num_div_den ((d : ℚ) / 86400000000000)
    rw [h1, h2] at this
    simp only [Nat.cast_one, div_one] at this
    have h3 : (n : ℚ) * 86400000000000 = d := by rw [this]; field_simp
    have : ((n * 86400000000000 : Int) : ℚ) = (d : ℚ) := by push_cast; exact h3
    exact (by exact_mod_cast this.symm)
  · rintro rfl
    have : ((n * 86400000000000 : Int) : ℚ) / 86400000000000 = (n : ℚ) := by push_cast; field_simp
    rw [this]
    simp

example : wholeDays 172800000000000 = some 2 ∧ wholeDays 129600000000000 = none := by decide +kernel

example : durationTokens 129600500000000 = [(1, .d), (12, .h), (500, .ms)] := by decide

end Verif.Time
