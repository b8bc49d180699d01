import Mathlib.Tactic.Linarith
import Mathlib.Tactic.Ring
import Mathlib.Tactic.IntervalCases
import Verif.Model.Calendar

/-! # Facts about the calendar -/

namespace Verif.Calendar

theorem isLeap_iff (y : Int) : isLeap y = true ↔ y % 4 = 0 ∧ (y % 100 ≠ 0 ∨ y % 400 = 0) := by
  simp [isLeap]

theorem daysBeforeYear_succ (y : Int) : daysBeforeYear (y + 1) = daysBeforeYear y + daysInYear y := by
  unfold daysBeforeYear daysInYear
  by_cases h : isLeap y = true
  · rw [if_pos h]
    rw [isLeap_iff] at h
    omega
  · rw [if_neg h]
    rw [isLeap_iff] at h
    omega

theorem daysBeforeMonth_13 (y : Int) : daysBeforeMonth y 13 = daysInYear y := by
  simp only [daysBeforeMonth, daysInMonth, daysInYear]
  split <;> rfl

theorem daysInMonth_pos {y : Int} {m : Nat} (h1 : 1 ≤ m) (h2 : m ≤ 12) : 28 ≤ daysInMonth y m := by
  interval_cases m <;> simp only [daysInMonth] <;> first | omega | (split <;> omega)

theorem daysInMonth_le (y : Int) (m : Nat) : daysInMonth y m ≤ 31 := by
  unfold daysInMonth
  split <;> first | omega | (split <;> omega)

theorem daysBeforeMonth_mono (y : Int) {a b : Nat} (h : a ≤ b) : daysBeforeMonth y a ≤ daysBeforeMonth y b := by
  induction h with
  | refl => exact Nat.le_refl _
  | step _ ih => simp only [daysBeforeMonth]; omega

theorem daysBeforeYear_mono {a b : Int} (h : a ≤ b) : daysBeforeYear a ≤ daysBeforeYear b := by
  unfold daysBeforeYear; omega

/-- The day of the year is between 1 and the length of the year. -/
theorem dayOfYear_bounds {d : Date} (h : d.Valid) : 1 ≤ d.dayOfYear ∧ d.dayOfYear ≤ daysInYear d.year := by
  obtain ⟨h1, h2, h3, h4⟩ := h
  have hm := daysBeforeMonth_mono d.year (a := d.month + 1) (b := 13) (by omega)
  rw [daysBeforeMonth_13] at hm
  simp only [daysBeforeMonth] at hm
  unfold Date.dayOfYear
  omega

theorem dayNumber_lt_of_lt {a b : Date} (ha : a.Valid) (hb : b.Valid) (h : a.lt b) : a.dayNumber < b.dayNumber := by
  unfold Date.dayNumber
  rcases h with h | ⟨hy, h⟩
  · have h1 := daysBeforeYear_mono (a := a.year + 1) (b := b.year) (by omega)
    rw [daysBeforeYear_succ] at h1
    have h2 := (dayOfYear_bounds ha).2
    have h3 := (dayOfYear_bounds hb).1
    omega
  · rcases h with h | ⟨hm, h⟩
    · have h1 := daysBeforeMonth_mono a.year (a := a.month + 1) (b := b.month) (by omega)
      simp only [daysBeforeMonth] at h1
      obtain ⟨_, _, _, h4⟩ := ha
      obtain ⟨_, _, h5, _⟩ := hb
      unfold Date.dayOfYear
      rw [← hy]
      omega
    · unfold Date.dayOfYear
      rw [← hy, ← hm]
      omega

theorem lt_trichotomy (a b : Date) : a.lt b ∨ a = b ∨ b.lt a := by
  unfold Date.lt
  by_cases h : a = b
  · exact .inr (.inl h)
  · have : ¬ (a.year = b.year ∧ a.month = b.month ∧ a.day = b.day) := by
      rintro ⟨h1, h2, h3⟩
      apply h
      cases a; cases b; simp_all
    omega

theorem dayNumber_lt_iff {a b : Date} (ha : a.Valid) (hb : b.Valid) : a.dayNumber < b.dayNumber ↔ a.lt b := by
  constructor
  · intro h
    rcases lt_trichotomy a b with h1 | h1 | h1
    · exact h1
    · subst h1; omega
    · have := dayNumber_lt_of_lt hb ha h1
      omega
  · exact dayNumber_lt_of_lt ha hb

theorem dayNumber_inj {a b : Date} (ha : a.Valid) (hb : b.Valid) (h : a.dayNumber = b.dayNumber) : a = b := by
  rcases lt_trichotomy a b with h1 | h1 | h1
  · have := dayNumber_lt_of_lt ha hb h1; omega
  · exact h1
  · have := dayNumber_lt_of_lt hb ha h1; omega

theorem succ_valid {d : Date} (h : d.Valid) : d.succ.Valid := by
  obtain ⟨h1, h2, h3, h4⟩ := h
  unfold Date.succ
  split
  · exact ⟨h1, h2, by simp, by simpa using by omega⟩
  · split
    · refine ⟨by simp, by simpa using by omega, by simp, ?_⟩
      have := daysInMonth_pos (y := d.year) (m := d.month + 1) (by omega) (by omega)
      simp only
      omega
    · refine ⟨by simp, by simp, by simp, ?_⟩
      have := daysInMonth_pos (y := d.year + 1) (m := 1) (by omega) (by omega)
      simp only
      omega

theorem dayNumber_succ {d : Date} (h : d.Valid) : d.succ.dayNumber = d.dayNumber + 1 := by
  obtain ⟨h1, h2, h3, h4⟩ := h
  unfold Date.succ Date.dayNumber Date.dayOfYear
  split
  · simp only; omega
  · split
    · simp only [daysBeforeMonth]; omega
    · have hm : d.month = 12 := by omega
      have hy := daysBeforeYear_succ d.year
      have h13 : daysBeforeMonth d.year 12 + daysInMonth d.year 12 = daysInYear d.year := daysBeforeMonth_13 d.year
      have h0 : daysBeforeMonth (d.year + 1) 1 = 0 := rfl
      have e1 : daysInMonth d.year d.month = daysInMonth d.year 12 := by rw [hm]
      have e2 : daysBeforeMonth d.year d.month = daysBeforeMonth d.year 12 := by rw [hm]
      simp only
      omega

theorem addDays_valid {d : Date} (h : d.Valid) (n : Nat) : (d.addDays n).Valid := by
  induction n with
  | zero => exact h
  | succ n ih => exact succ_valid ih

theorem dayNumber_addDays {d : Date} (h : d.Valid) (n : Nat) : (d.addDays n).dayNumber = d.dayNumber + n := by
  induction n with
  | zero => simp [Date.addDays]
  | succ n ih =>
    simp only [Date.addDays]
    rw [dayNumber_succ (addDays_valid h n), ih]
    push_cast; ring

theorem addMonths_valid {d : Date} (h : d.Valid) (n : Nat) : (d.addMonths n).Valid := by
  obtain ⟨h1, h2, h3, h4⟩ := h
  unfold Date.addMonths
  refine ⟨by simp, by simpa using by omega, ?_, by simp⟩
  simp only
  have := daysInMonth_pos (y := d.year + ((d.month - 1 + n) / 12 : Nat)) (m := (d.month - 1 + n) % 12 + 1)
    (by omega) (by omega)
  omega

/-- Adding more months gives a later date. -/
theorem addMonths_lt {d : Date} {a b : Nat} (hab : a < b) : (d.addMonths a).lt (d.addMonths b) := by
  unfold Date.addMonths Date.lt
  simp only
  omega

theorem addMonths_zero {d : Date} (h : d.Valid) : d.addMonths 0 = d := by
  obtain ⟨h1, h2, h3, h4⟩ := h
  obtain ⟨y, m, dd⟩ := d
  unfold Date.addMonths
  simp only at *
  have e1 : (m - 1 + 0) / 12 = 0 := by omega
  have e2 : (m - 1 + 0) % 12 + 1 = m := by omega
  rw [e1, e2]
  simp
  exact h4

theorem add_valid {t : DateTime} (h : t.Valid) (n : Nat) : (t.add n).Valid := by
  refine ⟨addDays_valid h.1 _, ?_⟩
  exact Nat.mod_lt _ (by decide)

theorem instant_add {t : DateTime} (h : t.Valid) (n : Nat) : (t.add n).instant = t.instant + n := by
  unfold DateTime.add DateTime.instant
  simp only
  rw [dayNumber_addDays h.1]
  unfold nsPerDay
  omega

/-- The order of date-times used by `jiff` is the order of instants. -/
theorem le_iff_instant {a b : DateTime} (ha : a.Valid) (hb : b.Valid) : a.le b ↔ a.instant ≤ b.instant := by
  have ha2 := ha.2
  have hb2 := hb.2
  unfold DateTime.instant
  unfold nsPerDay at *
  rcases lt_trichotomy a.date b.date with h | h | h
  · have := dayNumber_lt_of_lt ha.1 hb.1 h
    constructor
    · intro _; omega
    · intro _; exact .inl h
  · unfold DateTime.le
    rw [h]
    have : ¬ b.date.lt b.date := by unfold Date.lt; omega
    simp [this]
  · have hlt := dayNumber_lt_of_lt hb.1 ha.1 h
    constructor
    · rintro (h1 | ⟨h1, _⟩)
      · have := dayNumber_lt_of_lt ha.1 hb.1 h1; omega
      · rw [h1] at hlt; omega
    · intro _; omega

theorem instant_inj {a b : DateTime} (ha : a.Valid) (hb : b.Valid) (h : a.instant = b.instant) : a = b := by
  have h1 := (le_iff_instant ha hb).2 (le_of_eq h)
  have h2 := (le_iff_instant hb ha).2 (le_of_eq h.symm)
  obtain ⟨da, na⟩ := a
  obtain ⟨db, nb⟩ := b
  rcases h1 with h1 | ⟨h1, h3⟩
  · rcases h2 with h2 | ⟨h2, _⟩
    · unfold Date.lt at h1 h2; simp only at *; omega
    · simp only at *; subst h2; unfold Date.lt at h1; omega
  · rcases h2 with h2 | ⟨_, h4⟩
    · simp only at *; subst h1; unfold Date.lt at h2; omega
    · simp only at *; subst h1; congr; omega

theorem addSpan_valid {t : DateTime} (h : t.Valid) (s : Span) : (t.addSpan s).Valid :=
  add_valid (t := { t with date := (t.date.addMonths s.months).addDays (7 * s.weeks + s.days) })
    ⟨addDays_valid (addMonths_valid h.1 _) _, h.2⟩ _

theorem instant_addSpan {t : DateTime} (h : t.Valid) (s : Span) :
    (t.addSpan s).instant = ((t.date.addMonths s.months).dayNumber + (7 * s.weeks + s.days : Nat)) * nsPerDay + t.ns + s.ns := by
  unfold DateTime.addSpan
  rw [instant_add (t := { t with date := (t.date.addMonths s.months).addDays (7 * s.weeks + s.days) })
    ⟨addDays_valid (addMonths_valid h.1 _) _, h.2⟩]
  unfold DateTime.instant
  simp only
  rw [dayNumber_addDays (addMonths_valid h.1 _)]

/-- Adding a positive span `b > a` times gives a strictly later instant, in spite of clipping. -/
theorem addSpan_strictMono {t : DateTime} (h : t.Valid) {s : Span}
    (hs : 0 < s.months ∨ 0 < s.weeks ∨ 0 < s.days ∨ 0 < s.ns) {a b : Nat} (hab : a < b) :
    (t.addSpan (s.mul a)).instant < (t.addSpan (s.mul b)).instant := by
  rw [instant_addSpan h, instant_addSpan h]
  simp only [Span.mul]
  have hw : s.weeks * a ≤ s.weeks * b := Nat.mul_le_mul_left _ hab.le
  have hd : s.days * a ≤ s.days * b := Nat.mul_le_mul_left _ hab.le
  have hn : s.ns * a ≤ s.ns * b := Nat.mul_le_mul_left _ hab.le
  have hm : (t.date.addMonths (s.months * a)).dayNumber ≤ (t.date.addMonths (s.months * b)).dayNumber ∧
      (0 < s.months → (t.date.addMonths (s.months * a)).dayNumber < (t.date.addMonths (s.months * b)).dayNumber) := by
    by_cases h0 : 0 < s.months
    · have := dayNumber_lt_of_lt (addMonths_valid h.1 _) (addMonths_valid h.1 _)
        (addMonths_lt (Nat.mul_lt_mul_of_pos_left hab h0))
      exact ⟨by omega, fun _ => this⟩
    · have : s.months = 0 := by omega
      rw [this]; simp
  have hw' : 0 < s.weeks → s.weeks * a < s.weeks * b := fun h => Nat.mul_lt_mul_of_pos_left hab h
  have hd' : 0 < s.days → s.days * a < s.days * b := fun h => Nat.mul_lt_mul_of_pos_left hab h
  have hn' : 0 < s.ns → s.ns * a < s.ns * b := fun h => Nat.mul_lt_mul_of_pos_left hab h
  unfold nsPerDay
  obtain ⟨hm1, hm2⟩ := hm
  push_cast
  generalize (t.date.addMonths (s.months * a)).dayNumber = x at *
  generalize (t.date.addMonths (s.months * b)).dayNumber = y at *
  generalize hA : s.weeks * a = A at *
  generalize hB : s.weeks * b = B at *
  generalize hC : s.days * a = C at *
  generalize hD : s.days * b = D at *
  generalize hE : s.ns * a = E at *
  generalize hF : s.ns * b = F at *
  have e1 : (s.weeks : Int) * a = A := by rw [← hA]; push_cast; ring
  have e2 : (s.weeks : Int) * b = B := by rw [← hB]; push_cast; ring
  have e3 : (s.days : Int) * a = C := by rw [← hC]; push_cast; ring
  have e4 : (s.days : Int) * b = D := by rw [← hD]; push_cast; ring
  have e5 : (s.ns : Int) * a = E := by rw [← hE]; push_cast; ring
  have e6 : (s.ns : Int) * b = F := by rw [← hF]; push_cast; ring
  rw [e1, e2, e3, e4, e5, e6]
  omega

end Verif.Calendar
