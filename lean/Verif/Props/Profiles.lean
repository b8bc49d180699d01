import Verif.Model.Profiles
import Verif.Props.Timestep
import Mathlib.Tactic.FieldSimp

/-!
# C35, C36, C37, C57, C58: profiles
-/

namespace Verif.Profiles

open Verif.Calendar Verif.Time

/-! ## Specification -/

/-- Share of the day that has passed. -/
def dayFraction (t : DateTime) : ℚ := (t.ns : ℚ) / (nsPerDay : ℚ)

/-- Weighted mean of two values: `f` is the weight of the second. -/
def mix (a b f : ℚ) : ℚ := (1 - f) * a + f * b

theorem mix_between {a b f : ℚ} (h0 : 0 ≤ f) (h1 : f ≤ 1) : min a b ≤ mix a b f ∧ mix a b f ≤ max a b := by
  unfold mix
  rcases le_total a b with h | h
  · rw [min_eq_left h, max_eq_right h]; constructor <;> nlinarith
  · rw [min_eq_right h, max_eq_left h]; constructor <;> nlinarith

theorem dayFraction_range {t : DateTime} (h : t.Valid) : 0 ≤ dayFraction t ∧ dayFraction t < 1 ∧ (t.ns = 0 → dayFraction t = 0) := by
  unfold dayFraction
  have h2 : (t.ns : ℚ) < (nsPerDay : ℚ) := by exact_mod_cast h.2
  have hp : (0 : ℚ) < (nsPerDay : ℚ) := by unfold nsPerDay; norm_num
  refine ⟨div_nonneg (by positivity) hp.le, (div_lt_one hp).2 h2, fun h => by rw [h]; simp⟩

/-! ## C35 -/

theorem dayNumber_in_month (y : Int) (m d : Nat) : Date.dayNumber ⟨y, m, d⟩ = Date.dayNumber ⟨y, m, 1⟩ + d - 1 := by
  unfold Date.dayNumber Date.dayOfYear
  push_cast
  ring

theorem dayNumber_next_month {d : Date} (h : d.Valid) :
    (startOfMonth (d.addMonths 1)).date.dayNumber = Date.dayNumber ⟨d.year, d.month, 1⟩ + daysInMonth d.year d.month := by
  obtain ⟨y, m, dd⟩ := d
  obtain ⟨h1, h2, h3, h4⟩ := h
  simp only at h1 h2 h3 h4
  unfold startOfMonth Date.addMonths Date.dayNumber Date.dayOfYear
  simp only
  have e : m - 1 + 1 = m := by omega
  rw [e]
  rcases Nat.lt_or_ge m 12 with hm | hm
  · have e1 : m / 12 = 0 := by omega
    have e2 : m % 12 = m := by omega
    rw [e1, e2]
    simp only [daysBeforeMonth, Nat.cast_zero, add_zero]
    push_cast
    ring
  · have : m = 12 := by omega
    subst this
    have h13 : daysBeforeMonth y 12 + daysInMonth y 12 = daysInYear y := daysBeforeMonth_13 y
    have hs := daysBeforeYear_succ y
    have hd : daysBeforeMonth (y + 1) 1 = 0 := by simp [daysBeforeMonth, daysInMonth]
    show daysBeforeYear (y + 1) + ((daysBeforeMonth (y + 1) 1 + 1 : Nat) : Int) = _
    rw [hs, hd, ← h13]
    push_cast
    ring

theorem dayNumber_previous_month {d : Date} (h : d.Valid) :
    (lastOfMonth (previousMonth d)).date.dayNumber = Date.dayNumber ⟨d.year, d.month, 1⟩ - 1 := by
  obtain ⟨y, m, dd⟩ := d
  obtain ⟨h1, h2, h3, h4⟩ := h
  simp only at h1 h2 h3 h4
  unfold lastOfMonth previousMonth
  simp only
  by_cases hm : m = 1
  · subst hm
    have h13 := daysBeforeMonth_13 (y - 1)
    have hs := daysBeforeYear_succ (y - 1)
    rw [sub_add_cancel] at hs
    simp only [if_true]
    unfold Date.dayNumber Date.dayOfYear
    simp only
    rw [hs]
    have hd : daysBeforeMonth y 1 = 0 := by simp [daysBeforeMonth, daysInMonth]
    rw [hd]
    have h13' : daysBeforeMonth (y - 1) 12 + daysInMonth (y - 1) 12 = daysInYear (y - 1) := h13
    rw [h13']
    push_cast
    ring
  · rw [if_neg hm]
    unfold Date.dayNumber Date.dayOfYear
    simp only
    obtain ⟨k, rfl⟩ : ∃ k, m = k + 1 := ⟨m - 1, by omega⟩
    simp only [Nat.add_sub_cancel, daysBeforeMonth]
    push_cast
    ring

theorem fraction_first {t : DateTime} (h : t.Valid) (a b : ℚ) :
    interpolateFirst t a b = mix a b (((t.date.day : ℚ) - 1 + dayFraction t) / (daysInMonth t.date.year t.date.month : ℚ)) := by
  have hn := dayNumber_next_month h.1
  have hd := dayNumber_in_month t.date.year t.date.month t.date.day
  have hp : (0 : ℚ) < (nsPerDay : ℚ) := by unfold nsPerDay; norm_num
  have hdim : (0 : ℚ) < (daysInMonth t.date.year t.date.month : ℚ) := by
    have := daysInMonth_pos (y := t.date.year) h.1.1 h.1.2.1
    have : 0 < daysInMonth t.date.year t.date.month := by omega
    exact_mod_cast this
  have e1 : (t.since (startOfMonth t.date) : ℚ) = ((t.date.day : ℚ) - 1) * nsPerDay + t.ns := by
    unfold DateTime.since DateTime.instant startOfMonth
    simp only
    rw [hd]
    push_cast
    ring
  have e2 : ((startOfMonth (t.date.addMonths 1)).since (startOfMonth t.date) : ℚ)
      = (daysInMonth t.date.year t.date.month : ℚ) * nsPerDay := by
    unfold DateTime.since DateTime.instant
    rw [hn]
    unfold startOfMonth
    push_cast
    ring
  unfold interpolateFirst mix dayFraction
  simp only
  rw [e1, e2]
  field_simp
  ring

theorem fraction_last {t : DateTime} (h : t.Valid) (a b : ℚ) :
    interpolateLast t a b = mix a b (((t.date.day : ℚ) + dayFraction t) / (daysInMonth t.date.year t.date.month : ℚ)) := by
  have hn := dayNumber_previous_month h.1
  have hd := dayNumber_in_month t.date.year t.date.month t.date.day
  have hl := dayNumber_in_month t.date.year t.date.month (daysInMonth t.date.year t.date.month)
  have hp : (0 : ℚ) < (nsPerDay : ℚ) := by unfold nsPerDay; norm_num
  have hdim : (0 : ℚ) < (daysInMonth t.date.year t.date.month : ℚ) := by
    have := daysInMonth_pos (y := t.date.year) h.1.1 h.1.2.1
    have : 0 < daysInMonth t.date.year t.date.month := by omega
    exact_mod_cast this
  have hz : (lastOfMonth (previousMonth t.date)).ns = 0 := rfl
  have e1 : (t.since (lastOfMonth (previousMonth t.date)) : ℚ) = (t.date.day : ℚ) * nsPerDay + t.ns := by
    unfold DateTime.since DateTime.instant
    rw [hn, hz, hd]
    push_cast
    ring
  have e2 : ((lastOfMonth t.date).since (lastOfMonth (previousMonth t.date)) : ℚ)
      = (daysInMonth t.date.year t.date.month : ℚ) * nsPerDay := by
    unfold DateTime.since DateTime.instant
    rw [hn, hz]
    unfold lastOfMonth
    simp only
    rw [hl]
    push_cast
    ring
  unfold interpolateLast mix dayFraction
  simp only
  rw [e1, e2]
  field_simp
  ring

/-- **C35 (no interpolation).** The value of the month. -/
theorem C35_plain (values : List ℚ) (hl : values.length = 12) (t : DateTime) (h : t.Valid) :
    ∃ a, values[t.date.month - 1]? = some a ∧ monthly values none t = some a := by
  obtain ⟨⟨h1, h2, _⟩, _⟩ := h
  exact ⟨values[t.date.month - 1], List.getElem?_eq_getElem (by omega), List.getElem?_eq_getElem (by omega)⟩

/-- **C35 (first).** Interpolating from the first day, the result mixes the value of the month and of the following month by the
share of the month that has passed, in [0, 1). At the start of the month it is the value of the month. -/
theorem C35_first (values : List ℚ) (hl : values.length = 12) (t : DateTime) (h : t.Valid) :
    ∃ a b f, values[t.date.month - 1]? = some a ∧ values[if t.date.month = 12 then 0 else t.date.month]? = some b ∧
      monthly values (some .first) t = some (mix a b f) ∧
      f = ((t.date.day : ℚ) - 1 + dayFraction t) / (daysInMonth t.date.year t.date.month : ℚ) ∧ 0 ≤ f ∧ f < 1 ∧
      (t.date.day = 1 → t.ns = 0 → monthly values (some .first) t = some a) := by
  obtain ⟨h1, h2, h3, h4⟩ := h.1
  have hmod : t.date.month % 12 = if t.date.month = 12 then 0 else t.date.month := by split_ifs <;> omega
  have ha : t.date.month - 1 < values.length := by omega
  have hb : t.date.month % 12 < values.length := by omega
  have hv : monthly values (some .first) t = some (mix values[t.date.month - 1] values[t.date.month % 12]
      (((t.date.day : ℚ) - 1 + dayFraction t) / (daysInMonth t.date.year t.date.month : ℚ))) := by
    unfold monthly
    simp only [List.getElem?_eq_getElem ha, List.getElem?_eq_getElem hb]
    rw [fraction_first h]
  obtain ⟨f0, f1, fz⟩ := dayFraction_range h
  have hd1 : (1 : ℚ) ≤ t.date.day := by exact_mod_cast h3
  have hd4 : (t.date.day : ℚ) ≤ (daysInMonth t.date.year t.date.month : ℚ) := by exact_mod_cast h4
  refine ⟨values[t.date.month - 1], values[t.date.month % 12], _, List.getElem?_eq_getElem ha, ?_, hv, rfl, ?_, ?_, ?_⟩
  · rw [← hmod]; exact List.getElem?_eq_getElem hb
  · exact div_nonneg (by linarith) (by linarith)
  · rw [div_lt_one (by linarith)]; linarith
  · intro hday hns
    rw [hv, hday, fz hns]
    simp [mix]

/-- **C35 (last).** Interpolating to the last day, the result mixes the value of the previous month and of the month; it is the value
of the month at the start of its last day. The weight is at most one, so the result between the two values, except after the start of
the last day. -/
theorem C35_last_partial (values : List ℚ) (hl : values.length = 12) (t : DateTime) (h : t.Valid) :
    ∃ a b f, values[if t.date.month = 1 then 11 else t.date.month - 2]? = some a ∧ values[t.date.month - 1]? = some b ∧
      monthly values (some .last) t = some (mix a b f) ∧
      f = ((t.date.day : ℚ) + dayFraction t) / (daysInMonth t.date.year t.date.month : ℚ) ∧ 0 < f ∧
      (f ≤ 1 ↔ t.date.day < daysInMonth t.date.year t.date.month ∨ t.ns = 0) ∧
      (t.date.day = daysInMonth t.date.year t.date.month → t.ns = 0 → monthly values (some .last) t = some b) := by
  obtain ⟨h1, h2, h3, h4⟩ := h.1
  have hidx : (if t.date.month = 1 then 12 else t.date.month - 1) - 1 = if t.date.month = 1 then 11 else t.date.month - 2 := by
    split_ifs <;> omega
  have ha : (if t.date.month = 1 then 12 else t.date.month - 1) - 1 < values.length := by split_ifs <;> omega
  have hb : t.date.month - 1 < values.length := by omega
  have hv : monthly values (some .last) t = some (mix values[(if t.date.month = 1 then 12 else t.date.month - 1) - 1]
      values[t.date.month - 1] (((t.date.day : ℚ) + dayFraction t) / (daysInMonth t.date.year t.date.month : ℚ))) := by
    unfold monthly
    simp only [List.getElem?_eq_getElem ha, List.getElem?_eq_getElem hb]
    rw [fraction_last h]
  obtain ⟨f0, f1, fz⟩ := dayFraction_range h
  have hd1 : (1 : ℚ) ≤ t.date.day := by exact_mod_cast h3
  have hd4 : (t.date.day : ℚ) ≤ (daysInMonth t.date.year t.date.month : ℚ) := by exact_mod_cast h4
  refine ⟨_, values[t.date.month - 1], _, ?_, List.getElem?_eq_getElem hb, hv, rfl, ?_, ?_, ?_⟩
  · rw [← hidx]; exact List.getElem?_eq_getElem ha
  · exact div_pos (by linarith) (by linarith)
  · rw [div_le_one (by linarith)]
    constructor
    · intro hle
      by_cases hlt : t.date.day < daysInMonth t.date.year t.date.month
      · exact Or.inl hlt
      · right
        have : (t.date.day : ℚ) = (daysInMonth t.date.year t.date.month : ℚ) := by
          have : t.date.day = daysInMonth t.date.year t.date.month := by omega
          exact_mod_cast this
        have hz : dayFraction t = 0 := by linarith
        unfold dayFraction at hz
        rcases div_eq_zero_iff.1 hz with h0 | h0
        · exact_mod_cast h0
        · exfalso; unfold nsPerDay at h0; norm_num at h0
    · rintro (hlt | hns)
      · have : (t.date.day : ℚ) + 1 ≤ (daysInMonth t.date.year t.date.month : ℚ) := by exact_mod_cast hlt
        linarith
      · rw [fz hns]; linarith
  · intro hday hns
    rw [hv, fz hns, ← hday]
    have : (t.date.day : ℚ) ≠ 0 := by linarith
    simp [mix, div_self this]

example : (⟨⟨2024, 2, 15⟩, 0⟩ : DateTime).Valid ∧
    monthly [1, 2, 31, 4, 5, 6, 7, 8, 9, 10, 11, 12] (some .first) ⟨⟨2024, 2, 15⟩, 0⟩ = some 16 := by decide +kernel

/-- **C35, refuted.** At noon of 31 January the result is above both the value of December (0) and that of January (31). -/
theorem C35_last_overshoot_refuted :
    monthly [31, 0, 0, 0, 0, 0, 0, 0, 0, 0, 0, 0] (some .last) ⟨⟨2023, 1, 31⟩, 43200000000000⟩ = some (63 / 2) := by decide +kernel

/-! ## C36 -/

/-- **C36 (lengths).** -/
theorem C36_accepts (values : List ℚ) : weeklyAccepts values = true ↔ values.length = 52 ∨ values.length = 53 := by
  unfold weeklyAccepts; simp

theorem week_fraction {t : DateTime} (h : t.Valid) (a b : ℚ) :
    weekInterpolate t a b = mix a b ((((dayOfYearIndex t.date % 7 : Nat) : ℚ) + dayFraction t) / 7) := by
  obtain ⟨f0, f1, _⟩ := dayFraction_range h
  have hfr : fractionalDayOfYear t = (dayOfYearIndex t.date : ℚ) + dayFraction t := by
    unfold fractionalDayOfYear dayFraction nsPerDay
    push_cast
    ring
  have hsplit : (dayOfYearIndex t.date : ℚ) = 7 * ((dayOfYearIndex t.date / 7 : Nat) : ℚ) + ((dayOfYearIndex t.date % 7 : Nat) : ℚ) := by
    have := Nat.div_add_mod (dayOfYearIndex t.date) 7
    exact_mod_cast this.symm
  have hr : ((dayOfYearIndex t.date % 7 : Nat) : ℚ) ≤ 6 := by
    have : dayOfYearIndex t.date % 7 ≤ 6 := by omega
    exact_mod_cast this
  have hr0 : (0 : ℚ) ≤ ((dayOfYearIndex t.date % 7 : Nat) : ℚ) := by positivity
  have hfloor : ⌊fractionalDayOfYear t / 7⌋ = ((dayOfYearIndex t.date / 7 : Nat) : Int) := by
    rw [Int.floor_eq_iff]
    rw [hfr, hsplit, Int.cast_natCast]
    constructor <;> linarith
  unfold weekInterpolate mix
  simp only
  rw [hfloor, hfr, Int.cast_natCast, hsplit]
  have e : (7 * ((dayOfYearIndex t.date / 7 : Nat) : ℚ) + ((dayOfYearIndex t.date % 7 : Nat) : ℚ) + dayFraction t) / 7
      = ((dayOfYearIndex t.date / 7 : Nat) : ℚ) + (((dayOfYearIndex t.date % 7 : Nat) : ℚ) + dayFraction t) / 7 := by ring
  rw [e]
  ring

/-- **C36.** For every date and profile of 52 or 53 values there is a value: that of the week of the date — weeks of seven days from
1 January in a leap-year calendar, the last one keeping what is left — or with interpolation a mix of it and the value of the next
(first) or previous (last) week, cyclically, by the share of the week that has passed, in [0, 1). -/
theorem C36_weekly (values : List ℚ) (hl : weeklyAccepts values = true) (t : DateTime) (h : t.Valid) :
    ∃ w a next prev f, w = min (leapSlot t.date.month t.date.day / 7) (values.length - 1) ∧
      values[w]? = some a ∧ values[(w + 1) % values.length]? = some next ∧ values[(w + values.length - 1) % values.length]? = some prev ∧
      f = (((leapSlot t.date.month t.date.day % 7 : Nat) : ℚ) + dayFraction t) / 7 ∧ 0 ≤ f ∧ f < 1 ∧
      weekly values none t = some a ∧ weekly values (some .first) t = some (mix a next f) ∧
      weekly values (some .last) t = some (mix prev a f) := by
  have hslot := C03_index_is_leap_slot t.date h.1
  have hlen : 52 ≤ values.length := by rcases (C36_accepts values).1 hl with h | h <;> omega
  obtain ⟨f0, f1, fz⟩ := dayFraction_range h
  obtain ⟨w, hw⟩ : ∃ w, w = weekIndex values t := ⟨_, rfl⟩
  have hwlt : w < values.length := by rw [hw]; unfold weekIndex; omega
  have hn : (w + 1) % values.length < values.length := Nat.mod_lt _ (by omega)
  have hp : (w + values.length - 1) % values.length < values.length := Nat.mod_lt _ (by omega)
  have hcur : weekCurrent values t = some values[w] := by unfold weekCurrent; rw [← hw]; exact List.getElem?_eq_getElem hwlt
  have hnext : weekNext values t = some values[(w + 1) % values.length] := by
    unfold weekNext
    rw [← hw, ← List.getElem?_eq_getElem hn]
    by_cases hge : w ≥ values.length - 1
    · rw [if_pos hge]
      have : w + 1 = values.length := by omega
      rw [this, Nat.mod_self]
    · rw [if_neg hge, Nat.mod_eq_of_lt (by omega)]
  have hprev : weekPrev values t = some values[(w + values.length - 1) % values.length] := by
    unfold weekPrev
    rw [← hw, ← List.getElem?_eq_getElem hp]
    by_cases h0 : w = 0
    · rw [if_pos h0, h0, Nat.zero_add, Nat.mod_eq_of_lt (by omega)]
    · rw [if_neg h0]
      have : w + values.length - 1 = w - 1 + values.length := by omega
      rw [this, Nat.add_mod_right, Nat.mod_eq_of_lt (by omega)]
  have hr : ((leapSlot t.date.month t.date.day % 7 : Nat) : ℚ) ≤ 6 := by
    have : leapSlot t.date.month t.date.day % 7 ≤ 6 := by omega
    exact_mod_cast this
  have hr0 : (0 : ℚ) ≤ ((leapSlot t.date.month t.date.day % 7 : Nat) : ℚ) := by positivity
  refine ⟨w, values[w], values[(w + 1) % values.length], values[(w + values.length - 1) % values.length], _, ?_,
    List.getElem?_eq_getElem hwlt, List.getElem?_eq_getElem hn, List.getElem?_eq_getElem hp, rfl, ?_, ?_, ?_, ?_, ?_⟩
  · rw [hw, ← hslot]; rfl
  · exact div_nonneg (by linarith) (by norm_num)
  · rw [div_lt_one (by norm_num)]; linarith
  · exact hcur
  · unfold weekly
    simp only [hcur, hnext]
    rw [week_fraction h, hslot]
  · unfold weekly
    simp only [hcur, hprev]
    rw [week_fraction h, hslot]

/-- A valid date in the 53rd week and a profile of 52 values. -/
example : weeklyAccepts (List.replicate 51 0 ++ [7]) = true ∧
    weekly ((List.replicate 51 0) ++ [7]) (some .first) ⟨⟨2023, 12, 31⟩, 0⟩ = some 6 := by decide +kernel

/-- **C36 (a profile of 52 values is not continuous).** In the last days of December the interpolation starts again from the last
value: it has already come near the first value on 29 December. -/
theorem C36_year_end_jump : weekly ((List.replicate 51 0) ++ [7]) (some .first) ⟨⟨2023, 12, 29⟩, 0⟩ = some 1 ∧
    weekly ((List.replicate 51 0) ++ [7]) (some .first) ⟨⟨2023, 12, 30⟩, 0⟩ = some 7 := by decide +kernel

/-! ## C37 -/

/-- Position in the leap-year calendar, from one. -/
theorem slot_eq (d : Date) (h : d.Valid) : dayOfYearIndex d + 1 = Date.dayOfYear ⟨2000, d.month, d.day⟩ := by
  rw [C03_index_is_leap_slot d h]
  obtain ⟨y, m, dd⟩ := d
  obtain ⟨h1, h2, h3, h4⟩ := h
  simp only at *
  unfold leapSlot
  interval_cases m <;> simp [Date.dayOfYear, daysBeforeMonth, daysInMonth, show isLeap 2000 = true from rfl] <;> omega

theorem valid_2000 (d : Date) (h : d.Valid) : (⟨2000, d.month, d.day⟩ : Date).Valid := by
  obtain ⟨y, m, dd⟩ := d
  obtain ⟨h1, h2, h3, h4⟩ := h
  simp only at *
  refine ⟨h1, h2, h3, ?_⟩
  simp only
  interval_cases m <;> by_cases hl : isLeap y = true <;> simp [hl, daysInMonth, show isLeap 2000 = true from rfl] at h4 ⊢ <;> omega

/-- One after February in a common year. -/
def afterFebruary (d : Date) : Nat := if isLeap d.year = false ∧ 3 ≤ d.month then 1 else 0

theorem dayOfYear_slot (d : Date) (h : d.Valid) : d.dayOfYear + afterFebruary d = dayOfYearIndex d + 1 := by
  rw [C03_index_is_leap_slot d h]
  obtain ⟨y, m, dd⟩ := d
  obtain ⟨h1, h2, h3, h4⟩ := h
  simp only at *
  unfold leapSlot Date.dayOfYear afterFebruary
  simp only
  interval_cases m <;> by_cases hl : isLeap y = true <;> simp [daysBeforeMonth, daysInMonth, hl] <;> omega

theorem slot_gt_60 (d : Date) (h : d.Valid) : dayOfYearIndex d + 1 > 60 ↔ 3 ≤ d.month := by
  rw [C03_index_is_leap_slot d h]
  obtain ⟨y, m, dd⟩ := d
  obtain ⟨h1, h2, h3, h4⟩ := h
  simp only at *
  unfold leapSlot
  interval_cases m <;> by_cases hl : isLeap y = true <;> simp [daysInMonth, hl] at h4 ⊢ <;> omega

theorem slot_lt (a b : Date) (ha : a.Valid) (hb : b.Valid) :
    dayOfYearIndex a < dayOfYearIndex b ↔ a.month < b.month ∨ (a.month = b.month ∧ a.day < b.day) := by
  have h := dayNumber_lt_iff (valid_2000 a ha) (valid_2000 b hb)
  have e1 := slot_eq a ha
  have e2 := slot_eq b hb
  unfold Date.dayNumber at h
  simp only [Date.lt] at h
  rw [← e1, ← e2] at h
  constructor
  · intro hlt
    rcases h.1 (by push_cast; omega) with h | h
    · omega
    · exact h.2
  · intro hlt
    have := h.2 (Or.inr ⟨trivial, hlt⟩)
    push_cast at this
    omega

theorem dayNumber_slot (d : Date) (h : d.Valid) :
    d.dayNumber = daysBeforeYear d.year + (dayOfYearIndex d : Int) + 1 - afterFebruary d := by
  have := dayOfYear_slot d h
  unfold Date.dayNumber
  omega

theorem daysInYear_leap (y : Int) : (daysInYear y : Int) = 366 - (if isLeap y = false then 1 else 0) := by
  unfold daysInYear
  by_cases h : isLeap y = true <;> simp [h]

/-- Specification: value after `k` of `n` days when falling evenly from one towards the residual share, which is reached after
`n` days. -/
def evenFall (residualDays : Nat) (n k : Int) : ℚ := 1 - (1 - (residualDays : ℚ) / (n : ℚ)) / (n : ℚ) * (k : ℚ)

theorem drawdown_even (residualDays doy : Nat) (d : Date) :
    drawdown residualDays doy d = evenFall residualDays ((drawdownDays doy d).2 : Int) (drawdownDays doy d).1 := by
  unfold drawdown evenFall
  simp only [Int.cast_natCast]
  ring

/-- Days into the period and days in the period, for a reset after February. -/
theorem days_late (month day : Nat) (hm : 3 ≤ month) (y : Int) (hr : (⟨y, month, day⟩ : Date).Valid)
    (hr' : (⟨y + 1, month, day⟩ : Date).Valid) (doy : Nat) (hdoy : resetDoy month day = some doy) (d : Date) (hd : d.Valid)
    (h1 : Date.dayNumber ⟨y, month, day⟩ ≤ d.dayNumber) (h2 : d.dayNumber < Date.dayNumber ⟨y + 1, month, day⟩) :
    (drawdownDays doy d).1 = d.dayNumber - Date.dayNumber ⟨y, month, day⟩ ∧
    ((drawdownDays doy d).2 : Int) = Date.dayNumber ⟨y + 1, month, day⟩ - Date.dayNumber ⟨y, month, day⟩ := by
  have hdoy' : doy = dayOfYearIndex ⟨y, month, day⟩ + 1 := by
    unfold resetDoy at hdoy
    split_ifs at hdoy with hv
    simp only [Option.some.injEq] at hdoy
    rw [slot_eq _ hr, ← slot_eq ⟨2016, month, day⟩ hv, ← hdoy, ← dayOfYear_slot ⟨2016, month, day⟩ hv]
    have : afterFebruary ⟨2016, month, day⟩ = 0 := by simp [afterFebruary, show isLeap 2016 = true from rfl]
    omega
  have hgt : doy > 60 := by rw [hdoy', slot_gt_60 _ hr]; exact hm
  have hidx : dayOfYearIndex ⟨y + 1, month, day⟩ = dayOfYearIndex ⟨y, month, day⟩ :=
    ((C03_index_leap_stable _ _ hr' hr).2).2 ⟨rfl, rfl⟩
  have er := dayNumber_slot _ hr
  have er' := dayNumber_slot _ hr'
  have ed := dayNumber_slot _ hd
  rw [hidx] at er'
  have hs := daysBeforeYear_succ y
  have hyy := daysInYear_leap y
  have ar : afterFebruary ⟨y, month, day⟩ = if isLeap y = false then 1 else 0 := by simp [afterFebruary, hm]
  have ar' : afterFebruary ⟨y + 1, month, day⟩ = if isLeap (y + 1) = false then 1 else 0 := by simp [afterFebruary, hm]
  rw [ar] at er
  rw [ar'] at er'
  simp only at er er'
  rw [← not_lt, dayNumber_lt_iff hd hr] at h1
  rw [dayNumber_lt_iff hd hr'] at h2
  have hyear : d.year = y ∨ d.year = y + 1 := by
    unfold Date.lt at h1 h2
    simp only at h1 h2
    by_contra hc
    rw [not_or] at hc
    rcases h2 with h | h
    · exact h1 (Or.inl (by omega))
    · omega
  rcases hyear with hy | hy
  · have hge : dayOfYearIndex ⟨y, month, day⟩ ≤ dayOfYearIndex d := by
      rw [← not_lt, slot_lt d _ hd hr]
      intro hlt
      exact h1 (Or.inr ⟨hy, hlt⟩)
    have hm3 : 3 ≤ d.month := by
      rw [← slot_gt_60 d hd]; omega
    have ad : afterFebruary d = if isLeap y = false then 1 else 0 := by simp [afterFebruary, hm3, hy]
    rw [ad, hy] at ed
    have hinto : ¬ ((dayOfYearIndex d + 1 : Nat) : Int) - (doy : Int) < 0 := by omega
    unfold drawdownDays
    simp only [hinto, if_false, hgt, if_true, hy]
    constructor
    · rw [er, ed]; push_cast [hdoy']; omega
    · rw [er, er', hs]
      by_cases hl : isLeap y = true <;> by_cases hl' : isLeap (y + 1) = true <;> simp [hl, hl'] at hyy ⊢ <;> omega
  · have hlt : dayOfYearIndex d < dayOfYearIndex ⟨y, month, day⟩ := by
      rw [← hidx, slot_lt d _ hd hr']
      unfold Date.lt at h2
      simp only at h2
      rcases h2 with h | h
      · omega
      · exact h.2
    have hinto : ((dayOfYearIndex d + 1 : Nat) : Int) - (doy : Int) < 0 := by omega
    have ad : afterFebruary d = if isLeap (y + 1) = false ∧ dayOfYearIndex d + 1 > 60 then 1 else 0 := by
      simp only [afterFebruary, hy, slot_gt_60 d hd]
    rw [ad, hy] at ed
    unfold drawdownDays
    simp only [hinto, if_true, hgt, hy]
    constructor
    · rw [er, ed, hs]
      by_cases hl : isLeap y = true <;> by_cases hl' : isLeap (y + 1) = true <;> by_cases hc : dayOfYearIndex d + 1 > 60 <;>
        simp [hl, hl', hc] at hyy ⊢ <;> (push_cast [hdoy']; omega)
    · rw [er, er', hs]
      by_cases hl : isLeap y = true <;> by_cases hl' : isLeap (y + 1) = true <;> simp [hl, hl'] at hyy ⊢ <;> omega

/-- **C37 (reset after February).** On every date the value falls evenly: it is one on the reset day and falls by the same amount
each day until the next reset day; the amount is that by which the residual share would be reached on the next reset day. -/
theorem C37_even_partial (month day : Nat) (hm : 3 ≤ month) (y : Int) (hr : (⟨y, month, day⟩ : Date).Valid)
    (hr' : (⟨y + 1, month, day⟩ : Date).Valid) (residualDays doy : Nat) (hdoy : resetDoy month day = some doy) (d : Date) (hd : d.Valid)
    (h1 : Date.dayNumber ⟨y, month, day⟩ ≤ d.dayNumber) (h2 : d.dayNumber < Date.dayNumber ⟨y + 1, month, day⟩) :
    drawdown residualDays doy d = evenFall residualDays
      (Date.dayNumber ⟨y + 1, month, day⟩ - Date.dayNumber ⟨y, month, day⟩) (d.dayNumber - Date.dayNumber ⟨y, month, day⟩) := by
  obtain ⟨e1, e2⟩ := days_late month day hm y hr hr' doy hdoy d hd h1 h2
  rw [drawdown_even, e1, e2]

/-- **C37 (reset day).** On the reset day of any year the value is one. -/
theorem C37_reset (month day : Nat) (residualDays doy : Nat) (hdoy : resetDoy month day = some doy) (d : Date) (hd : d.Valid)
    (hmd : d.month = month ∧ d.day = day) : drawdown residualDays doy d = 1 := by
  unfold resetDoy at hdoy
  split_ifs at hdoy with hv
  simp only [Option.some.injEq] at hdoy
  have hsame : dayOfYearIndex d = dayOfYearIndex ⟨2016, month, day⟩ := ((C03_index_leap_stable d _ hd hv).2).2 hmd
  have hslot := dayOfYear_slot ⟨2016, month, day⟩ hv
  have : afterFebruary ⟨2016, month, day⟩ = 0 := by simp [afterFebruary, show isLeap 2016 = true from rfl]
  have hinto : (drawdownDays doy d).1 = 0 := by
    have : ((dayOfYearIndex d + 1 : Nat) : Int) - (doy : Int) = 0 := by rw [← hdoy, hsame]; omega
    unfold drawdownDays
    simp only [this]
    rfl
  rw [drawdown_even, hinto]
  simp [evenFall]

/-- **C37 (range).** The value is between the residual share and one, for every reset day and date. -/
theorem C37_range (month day : Nat) (residualDays doy : Nat) (hres : residualDays ≤ 255) (hdoy : resetDoy month day = some doy)
    (d : Date) (hd : d.Valid) :
    (residualDays : ℚ) / ((drawdownDays doy d).2 : ℚ) ≤ drawdown residualDays doy d ∧ drawdown residualDays doy d ≤ 1 ∧
    ((drawdownDays doy d).2 = 365 ∨ (drawdownDays doy d).2 = 366) := by
  have hdoy1 : 1 ≤ doy ∧ doy ≤ 366 := by
    unfold resetDoy at hdoy
    split_ifs at hdoy with hv
    simp only [Option.some.injEq] at hdoy
    have := dayOfYear_bounds hv
    have e : daysInYear 2016 = 366 := rfl
    simp only at this
    omega
  have hlt := (C03_index_leap_stable d d hd hd).1
  have htot : (drawdownDays doy d).2 = 365 ∨ (drawdownDays doy d).2 = 366 := by
    unfold drawdownDays
    simp only
    split_ifs <;> simp
  have hinto : 0 ≤ (drawdownDays doy d).1 ∧ (drawdownDays doy d).1 ≤ 365 := by
    unfold drawdownDays
    simp only
    have hk : ∀ (k : Int) (b : Bool), -365 ≤ k → k ≤ 365 → (b = true → -365 < k) →
        0 ≤ (if k < 0 then (if b = true then k + 366 - 1 else k + 366) else k) ∧
        (if k < 0 then (if b = true then k + 366 - 1 else k + 366) else k) ≤ 365 := by
      intro k b h1 h2 h3
      split_ifs <;> omega
    refine hk _ _ (by push_cast; omega) (by push_cast; omega) (fun hb => ?_)
    simp only [Bool.and_eq_true, decide_eq_true_eq] at hb
    push_cast
    omega
  refine ⟨?_, ?_, htot⟩
  all_goals
    rw [drawdown_even]
    unfold evenFall
    generalize (drawdownDays doy d).1 = k at *
    generalize (drawdownDays doy d).2 = n at *
    have hn : (365 : ℚ) ≤ (n : ℚ) := by
      have : 365 ≤ n := by omega
      exact_mod_cast this
    have hk0 : (0 : ℚ) ≤ (k : ℚ) := by exact_mod_cast hinto.1
    have hk1 : (k : ℚ) ≤ 365 := by exact_mod_cast hinto.2
    have hr : (residualDays : ℚ) ≤ 255 := by exact_mod_cast hres
    have hnpos : (0 : ℚ) < (n : ℚ) := by linarith
    have hshare : (residualDays : ℚ) / (n : ℚ) ≤ 1 := (div_le_one hnpos).2 (by linarith)
    have hkn : (k : ℚ) / (n : ℚ) ≤ 1 := (div_le_one hnpos).2 (by linarith)
    have hkn0 : 0 ≤ (k : ℚ) / (n : ℚ) := div_nonneg hk0 hnpos.le
    have e : (1 - (residualDays : ℚ) / ((n : Int) : ℚ)) / ((n : Int) : ℚ) * (k : ℚ) = (1 - (residualDays : ℚ) / (n : ℚ)) * ((k : ℚ) / (n : ℚ)) := by
      push_cast; ring
    rw [e]
    have hx : 0 ≤ 1 - (residualDays : ℚ) / (n : ℚ) := by linarith
    have hle := mul_le_mul_of_nonneg_left hkn hx
    have hge := mul_nonneg hx hkn0
    linarith

/-- A reset on 1 October and a date in the following year. -/
example : resetDoy 10 1 = some 275 ∧ Date.Valid ⟨2023, 3, 1⟩ ∧ drawdown 0 275 ⟨2023, 3, 1⟩ = 1 - 151 / 365 := by decide +kernel

/-- **C37, refuted.** With the default reset day, 1 January, in a common year the value falls twice as much on 1 March as on
28 February. -/
theorem C37_double_drop_refuted : resetDoy 1 1 = some 1 ∧
    drawdown 0 1 ⟨2023, 2, 27⟩ - drawdown 0 1 ⟨2023, 2, 28⟩ = 1 / 365 ∧
    drawdown 0 1 ⟨2023, 2, 28⟩ - drawdown 0 1 ⟨2023, 3, 1⟩ = 2 / 365 := by decide +kernel

/-- Days into the period for a reset before 29 February: right in leap years, one too many after February in common years. -/
theorem days_early (month day : Nat) (hm : month = 1 ∨ month = 2 ∧ day ≤ 28) (y : Int) (hr : (⟨y, month, day⟩ : Date).Valid)
    (hr' : (⟨y + 1, month, day⟩ : Date).Valid) (doy : Nat) (hdoy : resetDoy month day = some doy) (d : Date) (hd : d.Valid)
    (h1 : Date.dayNumber ⟨y, month, day⟩ ≤ d.dayNumber) (h2 : d.dayNumber < Date.dayNumber ⟨y + 1, month, day⟩) :
    (drawdownDays doy d).1 = d.dayNumber - Date.dayNumber ⟨y, month, day⟩ +
      (if isLeap y = false ∧ (3 ≤ d.month ∨ d.year = y + 1) then 1 else 0) ∧
    ((drawdownDays doy d).2 : Int) = Date.dayNumber ⟨y + 1, month, day⟩ - Date.dayNumber ⟨y, month, day⟩ := by
  have hm2 : ¬ 3 ≤ month := by omega
  have hdoy' : doy = dayOfYearIndex ⟨y, month, day⟩ + 1 := by
    unfold resetDoy at hdoy
    split_ifs at hdoy with hv
    simp only [Option.some.injEq] at hdoy
    rw [slot_eq _ hr, ← slot_eq ⟨2016, month, day⟩ hv, ← hdoy, ← dayOfYear_slot ⟨2016, month, day⟩ hv]
    have : afterFebruary ⟨2016, month, day⟩ = 0 := by simp [afterFebruary, show isLeap 2016 = true from rfl]
    omega
  have hgt : ¬ doy > 60 := by rw [hdoy', slot_gt_60 _ hr]; exact hm2
  have hidx : dayOfYearIndex ⟨y + 1, month, day⟩ = dayOfYearIndex ⟨y, month, day⟩ :=
    ((C03_index_leap_stable _ _ hr' hr).2).2 ⟨rfl, rfl⟩
  have er := dayNumber_slot _ hr
  have er' := dayNumber_slot _ hr'
  have ed := dayNumber_slot _ hd
  rw [hidx] at er'
  have hs := daysBeforeYear_succ y
  have hyy := daysInYear_leap y
  have ar : afterFebruary ⟨y, month, day⟩ = 0 := by simp [afterFebruary, hm2]
  have ar' : afterFebruary ⟨y + 1, month, day⟩ = 0 := by simp [afterFebruary, hm2]
  rw [ar] at er
  rw [ar'] at er'
  simp only at er er'
  rw [← not_lt, dayNumber_lt_iff hd hr] at h1
  rw [dayNumber_lt_iff hd hr'] at h2
  have hyear : d.year = y ∨ d.year = y + 1 := by
    unfold Date.lt at h1 h2
    simp only at h1 h2
    by_contra hc
    rw [not_or] at hc
    rcases h2 with h | h
    · exact h1 (Or.inl (by omega))
    · omega
  rcases hyear with hy | hy
  · have hge : dayOfYearIndex ⟨y, month, day⟩ ≤ dayOfYearIndex d := by
      rw [← not_lt, slot_lt d _ hd hr]
      intro hlt
      exact h1 (Or.inr ⟨hy, hlt⟩)
    have hne : ¬ d.year = y + 1 := by omega
    have hinto : ¬ ((dayOfYearIndex d + 1 : Nat) : Int) - (doy : Int) < 0 := by omega
    unfold afterFebruary at ed
    unfold drawdownDays
    simp only [hinto, if_false, hgt, hne, or_false]
    constructor
    · rw [er, ed, hy]
      by_cases hl : isLeap y = true <;> by_cases h3 : 3 ≤ d.month <;> simp [hl, h3] <;> (push_cast [hdoy']; omega)
    · rw [er, er', hs, hy]
      by_cases hl : isLeap y = true <;> simp [hl] at hyy ⊢ <;> omega
  · have hlt : dayOfYearIndex d < dayOfYearIndex ⟨y, month, day⟩ := by
      rw [← hidx, slot_lt d _ hd hr']
      unfold Date.lt at h2
      simp only at h2
      rcases h2 with h | h
      · omega
      · exact h.2
    have hinto : ((dayOfYearIndex d + 1 : Nat) : Int) - (doy : Int) < 0 := by omega
    have hc : ¬ dayOfYearIndex d + 1 > 60 := by omega
    have h3 : ¬ 3 ≤ d.month := by rw [← slot_gt_60 d hd]; exact hc
    have ad : afterFebruary d = 0 := by simp [afterFebruary, h3]
    rw [ad, hy] at ed
    unfold drawdownDays
    simp only [hinto, if_true, hgt, if_false, hy, hc]
    constructor
    · rw [er, ed, hs]
      by_cases hl : isLeap y = true <;> simp [hl] at hyy ⊢ <;> (push_cast [hdoy']; omega)
    · rw [er, er', hs]
      by_cases hl : isLeap y = true <;> simp [hl] at hyy ⊢ <;> omega

/-- **C37 (reset before 29 February).** The value falls evenly as in `C37_even_partial`, except that from 1 March of a common year to
the end of the cycle it is one day ahead. -/
theorem C37_early_partial (month day : Nat) (hm : month = 1 ∨ month = 2 ∧ day ≤ 28) (y : Int) (hr : (⟨y, month, day⟩ : Date).Valid)
    (hr' : (⟨y + 1, month, day⟩ : Date).Valid) (residualDays doy : Nat) (hdoy : resetDoy month day = some doy) (d : Date) (hd : d.Valid)
    (h1 : Date.dayNumber ⟨y, month, day⟩ ≤ d.dayNumber) (h2 : d.dayNumber < Date.dayNumber ⟨y + 1, month, day⟩) :
    drawdown residualDays doy d = evenFall residualDays
      (Date.dayNumber ⟨y + 1, month, day⟩ - Date.dayNumber ⟨y, month, day⟩)
      (d.dayNumber - Date.dayNumber ⟨y, month, day⟩ + (if isLeap y = false ∧ (3 ≤ d.month ∨ d.year = y + 1) then 1 else 0)) := by
  obtain ⟨e1, e2⟩ := days_early month day hm y hr hr' doy hdoy d hd h1 h2
  rw [drawdown_even, e1, e2]

/-- The first day of a cycle with a reset on 29 February. -/
def leapReset (y : Int) : Date := if isLeap y = true then ⟨y, 2, 29⟩ else ⟨y, 3, 1⟩

theorem leapReset_dayNumber (y : Int) : (leapReset y).dayNumber = daysBeforeYear y + 60 := by
  unfold leapReset
  by_cases hl : isLeap y = true <;> simp [hl, Date.dayNumber, Date.dayOfYear, daysBeforeMonth, daysInMonth]

theorem slot_59 (d : Date) (hd : d.Valid) (hl : isLeap d.year = false) : dayOfYearIndex d ≠ 59 := by
  intro h59
  rw [C03_index_is_leap_slot d hd] at h59
  obtain ⟨y, m, dd⟩ := d
  obtain ⟨h1, h2, h3, h4⟩ := hd
  simp only at *
  unfold leapSlot at h59
  interval_cases m <;> simp [daysInMonth, hl] at h4 h59 <;> omega

/-- **C37 (reset on 29 February).** From 29 February of a leap year the value falls evenly until the end of February of the next
year. In common years the cycle begins on 1 March, one day ahead. -/
theorem C37_leap_day_partial (residualDays : Nat) (y : Int) (d : Date) (hd : d.Valid)
    (h1 : (leapReset y).dayNumber ≤ d.dayNumber) (h2 : d.dayNumber < (leapReset (y + 1)).dayNumber) :
    resetDoy 2 29 = some 60 ∧
    drawdown residualDays 60 d = evenFall residualDays ((leapReset (y + 1)).dayNumber - (leapReset y).dayNumber)
      (d.dayNumber - (leapReset y).dayNumber + (if isLeap y = true then 0 else 1)) := by
  refine ⟨by decide +kernel, ?_⟩
  rw [leapReset_dayNumber] at h1 h2 ⊢
  rw [leapReset_dayNumber]
  have ed := dayNumber_slot d hd
  have hs := daysBeforeYear_succ y
  have hyy := daysInYear_leap y
  have hyear : d.year = y ∨ d.year = y + 1 := by
    have hdy := dayOfYear_slot d hd
    have hs' := daysBeforeYear_succ (y + 1)
    have e1 : d.dayNumber = daysBeforeYear d.year + d.dayOfYear := rfl
    by_contra hc
    rw [not_or] at hc
    have hv0 : (⟨y, 1, 1⟩ : Date).Valid := by refine ⟨?_, ?_, ?_, ?_⟩ <;> simp [daysInMonth]
    have hv1 : (⟨y + 1, 12, 31⟩ : Date).Valid := by refine ⟨?_, ?_, ?_, ?_⟩ <;> simp [daysInMonth]
    have n0 : Date.dayNumber ⟨y, 1, 1⟩ = daysBeforeYear y + 1 := by
      simp [Date.dayNumber, Date.dayOfYear, daysBeforeMonth, daysInMonth]
    have n1 := dayNumber_slot _ hv1
    have n2 : dayOfYearIndex ⟨y + 1, 12, 31⟩ = 365 := by
      rw [C03_index_is_leap_slot _ hv1]; rfl
    have n3 : (afterFebruary ⟨y + 1, 12, 31⟩ : Int) ≤ 1 := by unfold afterFebruary; split_ifs <;> simp
    rw [n2] at n1
    simp only at n1
    rcases lt_or_gt_of_ne hc.1 with h | h
    · have := (dayNumber_lt_iff hd hv0).2 (Or.inl h)
      omega
    · have := (dayNumber_lt_iff hv1 hd).2 (Or.inl (by simp only; omega))
      have hl : (daysInYear y : Int) ≤ 366 := by rw [hyy]; split_ifs <;> omega
      omega
  have h3 := slot_gt_60 d hd
  rw [drawdown_even]
  unfold afterFebruary at ed
  rcases hyear with hy | hy
  · have hinto : ¬ ((dayOfYearIndex d + 1 : Nat) : Int) - ((60 : Nat) : Int) < 0 := by
      rw [hy] at ed
      push_cast
      split_ifs at ed <;> omega
    have hlate : isLeap y = false → 3 ≤ d.month := by
      intro hl
      by_contra hc
      rw [hy, if_neg (fun h => hc h.2)] at ed
      have := slot_59 d hd (by rw [hy]; exact hl)
      have : ¬ dayOfYearIndex d + 1 > 60 := fun h => hc (h3.1 h)
      push_cast at ed
      omega
    have e2 : (drawdownDays 60 d).1 = d.dayNumber - (daysBeforeYear y + 60) + (if isLeap y = true then 0 else 1) := by
      unfold drawdownDays
      simp only [hinto, if_false]
      rw [ed, hy]
      by_cases hl : isLeap y = true
      · simp [hl]; omega
      · simp only [Bool.not_eq_true] at hl
        simp [hl, hlate hl]; omega
    have e3 : ((drawdownDays 60 d).2 : Int) = daysBeforeYear (y + 1) + 60 - (daysBeforeYear y + 60) := by
      unfold drawdownDays
      simp only [hinto, if_false, hy]
      rw [hs]
      by_cases hl : isLeap y = true <;> simp [hl] at hyy ⊢ <;> omega
    rw [e2, e3]
  · have hearly : ¬ 3 ≤ d.month := by
      intro hc
      rw [hy] at ed
      have := h3.2 hc
      split_ifs at ed <;> omega
    have ed' : d.dayNumber = daysBeforeYear (y + 1) + (dayOfYearIndex d : Int) + 1 := by
      rw [ed, hy, if_neg (fun h => hearly h.2)]; simp
    have hinto : ((dayOfYearIndex d + 1 : Nat) : Int) - ((60 : Nat) : Int) < 0 := by push_cast; omega
    have hc : ¬ dayOfYearIndex d + 1 > 60 := fun h => hearly (h3.1 h)
    have e2 : (drawdownDays 60 d).1 = d.dayNumber - (daysBeforeYear y + 60) + (if isLeap y = true then 0 else 1) := by
      unfold drawdownDays
      simp only [hinto, if_true, hc]
      rw [ed', hs]
      by_cases hl : isLeap y = true <;> simp [hl] at hyy ⊢ <;> omega
    have e3 : ((drawdownDays 60 d).2 : Int) = daysBeforeYear (y + 1) + 60 - (daysBeforeYear y + 60) := by
      unfold drawdownDays
      simp only [hinto, if_true, hy]
      rw [hs]
      by_cases hl : isLeap y = true <;> simp [hl] at hyy ⊢ <;> omega
    rw [e2, e3]

/-- A leap year and the common year after it. -/
example : drawdown 0 60 ⟨2016, 2, 29⟩ = 1 ∧ drawdown 0 60 ⟨2017, 2, 28⟩ = 1 - 365 / 366 ∧
    drawdown 0 60 ⟨2017, 3, 1⟩ = 1 - 1 / 365 := by decide +kernel

/-- **C37, refuted.** With a reset on 29 February the value is not one on any day of a common year. -/
theorem C37_no_reset_refuted (d : Date) (hd : d.Valid) (hl : isLeap d.year = false) : drawdown 0 60 d ≠ 1 := by
  have hb : ∃ y, (leapReset y).dayNumber ≤ d.dayNumber ∧ d.dayNumber < (leapReset (y + 1)).dayNumber ∧
      0 < d.dayNumber - (leapReset y).dayNumber + (if isLeap y = true then 0 else 1) := by
    have ed := dayNumber_slot d hd
    have hs := daysBeforeYear_succ d.year
    have hs' := daysBeforeYear_succ (d.year - 1)
    have hyy := daysInYear_leap d.year
    have hyy' := daysInYear_leap (d.year - 1)
    have hlt : dayOfYearIndex d < 366 := by
      rw [C03_index_is_leap_slot d hd]
      obtain ⟨y, m, dd⟩ := d
      obtain ⟨h1, h2, h3, h4⟩ := hd
      simp only at *
      unfold leapSlot
      interval_cases m <;> simp [daysInMonth, hl] at h4 ⊢ <;> omega
    simp only [leapReset_dayNumber]
    unfold afterFebruary at ed
    have h3 := slot_gt_60 d hd
    rw [hl] at ed hyy
    simp only [if_true] at hyy
    by_cases hm : 3 ≤ d.month
    · refine ⟨d.year, ?_, ?_, ?_⟩
      all_goals (have := h3.2 hm; simp only [true_and, hm, if_true, hl, Bool.false_eq_true, if_false] at ed ⊢; push_cast at ed; omega)
    · have hc : ¬ dayOfYearIndex d + 1 > 60 := fun h => hm (h3.1 h)
      have hne := slot_59 d hd hl
      refine ⟨d.year - 1, ?_, ?_, ?_⟩
      all_goals (simp only [hm, and_false, if_false] at ed; rw [sub_add_cancel] at *; by_cases hl' : isLeap (d.year - 1) = true <;> simp [hl'] at hyy' ⊢ <;> omega)
  obtain ⟨y, h1, h2, h3⟩ := hb
  rw [(C37_leap_day_partial 0 y d hd h1 h2).2]
  have hn : (0 : ℚ) < (((leapReset (y + 1)).dayNumber - (leapReset y).dayNumber : Int) : ℚ) := by
    have : 0 < (leapReset (y + 1)).dayNumber - (leapReset y).dayNumber := by omega
    exact_mod_cast this
  have hk : (0 : ℚ) < ((d.dayNumber - (leapReset y).dayNumber + (if isLeap y = true then 0 else 1) : Int) : ℚ) := by
    exact_mod_cast h3
  unfold evenFall
  have : 0 < 1 / (((leapReset (y + 1)).dayNumber - (leapReset y).dayNumber : Int) : ℚ) *
      ((d.dayNumber - (leapReset y).dayNumber + (if isLeap y = true then 0 else 1) : Int) : ℚ) := by positivity
  simp only [Nat.cast_zero, zero_div, sub_zero]
  intro h
  linarith

/-- **C37, refuted.** Numbers that are out of range are not rejected but wrapped round: 300 residual days act as 44, month 257 as 1. -/
theorem C37_wrapped_refuted : castU8 300 = 44 ∧ castI8 257 = 1 := by decide

/-! ## C58 -/

/-- **C58 (daily, accepted lengths).** -/
theorem C58_daily_accepts (values : List ℚ) : (dailyValues values).isSome ↔ values.length = 365 ∨ values.length = 366 := by
  unfold dailyValues
  split_ifs with h1 h2
  · simp [h1]
  · have : (58 : Nat) < values.length := by omega
    rw [List.getElem?_eq_getElem this]
    simp [h2]
  · simp [h1, h2]

/-- **C58 (daily, 366 values).** On every date the value given for its month and day in the leap-year calendar. -/
theorem C58_daily_leap (values used : List ℚ) (hl : values.length = 366) (hu : dailyValues values = some used) (t : DateTime) (h : t.Valid) :
    ∃ v, values[leapSlot t.date.month t.date.day]? = some v ∧ daily used t = some v := by
  unfold dailyValues at hu
  rw [if_pos hl] at hu
  simp only [Option.some.injEq] at hu
  subst hu
  have hlt := (C03_index_leap_stable t.date t.date h.1 h.1).1
  unfold daily
  rw [← C03_index_is_leap_slot t.date h.1]
  exact ⟨values[dayOfYearIndex t.date], List.getElem?_eq_getElem (by omega), List.getElem?_eq_getElem (by omega)⟩

/-- **C58 (daily, 365 values).** On every date but 29 February the value given for its month and day in the calendar of a common
year; on 29 February the value of 28 February. -/
theorem C58_daily_common (values used : List ℚ) (hl : values.length = 365) (hu : dailyValues values = some used) (t : DateTime) (h : t.Valid) :
    ∃ v, values[if t.date.month = 2 ∧ t.date.day = 29 then 58 else Date.dayOfYear ⟨2001, t.date.month, t.date.day⟩ - 1]? = some v ∧
      daily used t = some v := by
  unfold dailyValues at hu
  have h58 : (58 : Nat) < values.length := by omega
  rw [if_neg (by omega), if_pos hl, List.getElem?_eq_getElem h58] at hu
  simp only [Option.some.injEq] at hu
  subst hu
  have hlt := (C03_index_leap_stable t.date t.date h.1 h.1).1
  have h59 := C03_leap_day_own_slot t.date h.1
  have hord : Date.dayOfYear ⟨2001, t.date.month, t.date.day⟩ = dayOfYearIndex t.date + 1 - (if 3 ≤ t.date.month then 1 else 0) := by
    rw [C03_index_is_leap_slot t.date h.1]
    obtain ⟨⟨y, m, dd⟩, ns⟩ := t
    obtain ⟨⟨h1, h2, h3, h4⟩, _⟩ := h
    simp only at *
    unfold leapSlot Date.dayOfYear
    interval_cases m <;> simp [daysBeforeMonth, daysInMonth, show isLeap 2001 = false from rfl] <;> omega
  have h3 := slot_gt_60 t.date h.1
  unfold daily
  generalize dayOfYearIndex t.date = i at *
  have htake : (values.take 59).length = 59 := by simp; omega
  by_cases hi : i < 59
  · have hn : ¬ 3 ≤ t.date.month := by rw [← h3]; omega
    rw [if_neg (by rw [← h59]; omega), hord, if_neg hn]
    refine ⟨values[i], ?_, ?_⟩
    · simp only [Nat.add_sub_cancel, Nat.sub_zero]; exact List.getElem?_eq_getElem (by omega)
    · rw [List.getElem?_append_left (by omega), List.getElem?_take, if_pos hi]; exact List.getElem?_eq_getElem (by omega)
  · rw [List.getElem?_append_right (by omega), htake]
    by_cases h0 : i = 59
    · rw [if_pos (h59.1 h0), h0]
      exact ⟨values[58], List.getElem?_eq_getElem h58, rfl⟩
    · have hy : 3 ≤ t.date.month := by rw [← h3]; omega
      rw [if_neg (by rw [← h59]; exact h0), hord, if_pos hy]
      obtain ⟨j, rfl⟩ : ∃ j, i = j + 60 := ⟨i - 60, by omega⟩
      have e1 : j + 60 - 59 = j + 1 := by omega
      have e2 : j + 60 + 1 - 1 - 1 = 59 + j := by omega
      rw [e1, e2, List.getElem?_cons_succ, List.getElem?_drop]
      exact ⟨values[59 + j], List.getElem?_eq_getElem (by omega), List.getElem?_eq_getElem (by omega)⟩

/-- **C58 (diurnal).** The value of the hour of the day, at every time. -/
theorem C58_diurnal (values : List ℚ) (hl : values.length = 24) (t : DateTime) (h : t.Valid) :
    ∃ hour v, hour < 24 ∧ values[hour]? = some v ∧ diurnal values t = some v ∧
      hour * 3600000000000 ≤ t.ns ∧ t.ns < (hour + 1) * 3600000000000 := by
  have h2 : t.ns < 86400 * 1000000000 := h.2
  have hh : t.ns / (3600 * 1000000000) < 24 := by omega
  have h1 : t.ns / (3600 * 1000000000) * 3600000000000 ≤ t.ns := by omega
  have h3 : t.ns < (t.ns / (3600 * 1000000000) + 1) * 3600000000000 := by
    have := Nat.lt_div_mul_add (a := t.ns) (b := 3600 * 1000000000) (by norm_num)
    rw [Nat.add_mul, Nat.one_mul]
    exact this
  unfold diurnal
  generalize t.ns / (3600 * 1000000000) = hour at *
  exact ⟨hour, values[hour], hh, List.getElem?_eq_getElem (by omega), List.getElem?_eq_getElem (by omega), h1, h3⟩

example : (⟨⟨2024, 3, 1⟩, 43200000000000⟩ : DateTime).Valid ∧
    diurnal (List.range 24 |>.map (fun (i : Nat) => (i : ℚ))) ⟨⟨2024, 3, 1⟩, 43200000000000⟩ = some 12 := by decide +kernel

/-! ## C57 -/

theorem rbfValue_at (φ : ℚ → ℚ) (points : List (ℚ × ℚ)) (weights : List ℚ) (h : RbfSolved φ points weights) (p : ℚ × ℚ)
    (hp : p ∈ points) : rbfValue φ points weights p.1 = p.2 := by
  rw [← h.2 p hp]
  unfold rbfValue
  congr 1
  apply List.map_congr_left
  intro c _
  rw [abs_sub_comm]

theorem rbfProfile_get (φ : ℚ → ℚ) (points : List (Nat × ℚ)) (weights : List ℚ) (i : Nat) (hi : i < 366) :
    (rbfProfile φ points weights)[i]? =
      some (rbfValue φ (rbfPoints points) weights ((if i ≤ 58 then i else i - 1 : Nat) : ℚ)) := by
  unfold rbfProfile
  simp only
  generalize hs : (List.range 365).map (fun (i : Nat) => rbfValue φ (rbfPoints points) weights (i : ℚ)) = short
  have hlen : short.length = 365 := by rw [← hs]; simp
  have hget : ∀ j : Nat, j < 365 → short[j]? = some (rbfValue φ (rbfPoints points) weights (j : ℚ)) := by
    intro j hj
    rw [← hs]
    simp [hj]
  have hone : ((short.drop 58).take 1).length = 1 := by simp; omega
  have htake : (short.take 58).length = 58 := by simp; omega
  by_cases h1 : i < 58
  · rw [if_pos (by omega), List.append_assoc, List.getElem?_append_left (by omega), List.getElem?_take, if_pos h1, hget i (by omega)]
  · by_cases h2 : i = 58
    · subst h2
      rw [if_pos (by omega), List.append_assoc, List.getElem?_append_right (by omega), htake, List.getElem?_append_left (by omega),
        List.getElem?_take, if_pos (by omega), List.getElem?_drop]
      exact hget 58 (by omega)
    · rw [if_neg (by omega), List.getElem?_append_right (by rw [List.length_append]; omega), List.length_append, htake, hone,
        List.getElem?_drop]
      have : 58 + (i - (58 + 1)) = i - 1 := by omega
      rw [this, hget (i - 1) (by omega)]

/-- Position in the calendar of a common year, from zero; 29 February shares that of 28 February. -/
def commonSlot (d : Date) : Nat := if dayOfYearIndex d ≤ 58 then dayOfYearIndex d else dayOfYearIndex d - 1

/-- **C57 (through its points).** If the system of weights is solved, the profile passes through its points: on each date whose
position in the calendar of a common year, from zero, is the day of a point — cyclically — the value is that of the point. -/
theorem C57_through_points (φ : ℚ → ℚ) (points : List (Nat × ℚ)) (weights : List ℚ)
    (h : RbfSolved φ (rbfPoints points) weights) (p : Nat × ℚ) (hp : p ∈ points) (hday : p.1 < 730) (t : DateTime) (ht : t.Valid)
    (hd : commonSlot t.date = p.1 % 365) : rbf φ points weights t = some p.2 := by
  have hlt := (C03_index_leap_stable t.date t.date ht.1 ht.1).1
  unfold rbf
  rw [rbfProfile_get φ points weights _ hlt]
  have e : (if dayOfYearIndex t.date ≤ 58 then dayOfYearIndex t.date else dayOfYearIndex t.date - 1) = p.1 % 365 := hd
  rw [e]
  rcases Nat.lt_or_ge p.1 365 with hlt' | hge
  · rw [Nat.mod_eq_of_lt hlt']
    have := rbfValue_at φ _ weights h ((p.1 : ℚ), p.2) (by
      unfold rbfPoints
      rw [List.mem_append, List.mem_append]
      exact Or.inl (Or.inr (List.mem_map.2 ⟨p, hp, rfl⟩)))
    rw [this]
  · have hmod : p.1 % 365 = p.1 - 365 := by omega
    rw [hmod]
    have := rbfValue_at φ _ weights h ((p.1 : ℚ) - 365, p.2) (by
      unfold rbfPoints
      rw [List.mem_append, List.mem_append]
      exact Or.inl (Or.inl (List.mem_map.2 ⟨p, hp, rfl⟩)))
    have ec : ((p.1 - 365 : Nat) : ℚ) = (p.1 : ℚ) - 365 := by push_cast [Nat.cast_sub hge]; ring
    rw [ec, this]

/-- **C57 (leap years).** The profile has a value on every date, 29 February has that of 28 February, and all other dates have the
same value in every year. -/
theorem C57_dates (φ : ℚ → ℚ) (points : List (Nat × ℚ)) (weights : List ℚ) (t s : DateTime) (ht : t.Valid) (hs : s.Valid) :
    (∃ v, rbf φ points weights t = some v) ∧
    (commonSlot t.date = commonSlot s.date → rbf φ points weights t = rbf φ points weights s) ∧
    (t.date.month = 2 → t.date.day = 29 → s.date.month = 2 → s.date.day = 28 → rbf φ points weights t = rbf φ points weights s) := by
  have hlt := (C03_index_leap_stable t.date t.date ht.1 ht.1).1
  have hls := (C03_index_leap_stable s.date s.date hs.1 hs.1).1
  have key : commonSlot t.date = commonSlot s.date → rbf φ points weights t = rbf φ points weights s := by
    intro h
    unfold rbf
    rw [rbfProfile_get _ _ _ _ hlt, rbfProfile_get _ _ _ _ hls]
    have h' : (if dayOfYearIndex t.date ≤ 58 then dayOfYearIndex t.date else dayOfYearIndex t.date - 1)
      = (if dayOfYearIndex s.date ≤ 58 then dayOfYearIndex s.date else dayOfYearIndex s.date - 1) := h
    rw [h']
  refine ⟨?_, key, ?_⟩
  · unfold rbf
    exact ⟨_, rbfProfile_get _ _ _ _ hlt⟩
  · intro h1 h2 h3 h4
    apply key
    have e1 : dayOfYearIndex t.date = 59 := (C03_leap_day_own_slot t.date ht.1).2 ⟨h1, h2⟩
    have e2 : dayOfYearIndex s.date = 58 := by
      rw [C03_index_is_leap_slot s.date hs.1, h3, h4]; rfl
    unfold commonSlot
    rw [e1, e2]
    simp

/-- **C57 (variables).** Setting as many values, or days, as there are points replaces just the values, or the days. -/
theorem C57_variables (points : List (Nat × ℚ)) (xs : List Nat) (ys : List ℚ) (hx : xs.length = points.length)
    (hy : ys.length = points.length) :
    (rbfCurrent points none (some ys)).map (·.1) = points.map (·.1) ∧ (rbfCurrent points none (some ys)).map (·.2) = ys ∧
    (rbfCurrent points (some xs) none).map (·.1) = xs ∧ (rbfCurrent points (some xs) none).map (·.2) = points.map (·.2) ∧
    (rbfCurrent points (some xs) (some ys)).map (·.1) = xs ∧ (rbfCurrent points (some xs) (some ys)).map (·.2) = ys := by
  unfold rbfCurrent
  simp only [List.map_map]
  refine ⟨?_, ?_, ?_, ?_, ?_, ?_⟩
  · have : ((fun x : Nat × ℚ => x.1) ∘ fun p : (Nat × ℚ) × ℚ => (p.1.1, p.2)) = (fun x => x.1) ∘ Prod.fst := rfl
    rw [this, ← List.map_map, List.map_fst_zip (by omega)]
  · have : ((fun x : Nat × ℚ => x.2) ∘ fun p : (Nat × ℚ) × ℚ => (p.1.1, p.2)) = Prod.snd := rfl
    rw [this, List.map_snd_zip (by omega)]
  · exact List.map_fst_zip (by simp; omega)
  · exact List.map_snd_zip (by simp; omega)
  · exact List.map_fst_zip (by omega)
  · exact List.map_snd_zip (by omega)

/-- **C57 (bounds).** The bounds of the day of a point are in order and within 1 to 365 when the day is. -/
theorem C57_day_bounds (range day : Nat) (h1 : 1 ≤ day) (h2 : day ≤ 365) :
    1 ≤ (rbfDayBounds range day).1 ∧ (rbfDayBounds range day).1 ≤ day ∧ day ≤ (rbfDayBounds range day).2 ∧
    (rbfDayBounds range day).2 ≤ 365 ∧ day ≤ (rbfDayBounds range day).1 + range ∧ (rbfDayBounds range day).2 ≤ day + range := by
  unfold rbfDayBounds
  simp only
  split_ifs <;> omega

/-- A solved system: one point, distances. -/
example : RbfSolved (fun r => r) (rbfPoints [(100, 2)]) [1 / 365, 0, 1 / 365] ∧
    rbf (fun r => r) [(100, 2)] [1 / 365, 0, 1 / 365] ⟨⟨2023, 4, 11⟩, 0⟩ = some 2 := by
  refine ⟨⟨rfl, ?_⟩, ?_⟩
  · intro r hr
    simp only [rbfPoints, List.map_cons, List.map_nil, List.cons_append, List.nil_append, List.mem_cons, List.not_mem_nil, or_false] at hr
    rcases hr with rfl | rfl | rfl <;> decide +kernel
  · unfold rbf
    rw [rbfProfile_get _ _ _ _ (by decide)]
    decide +kernel

end Verif.Profiles
