import Verif.Props.TimeseriesRefs

/-!
# C85: concrete series
-/

namespace Verif.Timeseries

open Verif.Time Verif.Calendar

/-- A day in milliseconds. -/
def day : Int := 86400000

/-- 1 January 2021 and other dates of that year. -/
def date (m d : Nat) : DateTime := ⟨⟨2021, m, d⟩, 0⟩

/-- Two weeks from 7 January 2021 on. -/
def weeks : List Timestep := [⟨date 1 7, 0, 604800000000000⟩, ⟨date 1 14, 1, 604800000000000⟩]

example : build (date 1 7) (date 1 20) (.days 7) = .ok weeks := by decide +kernel

theorem weeks_even : Even weeks (stepTime (date 1 7)) (7 * day) :=
  C85_even (date 1 7) (date 1 20) (by decide) (by decide) (by decide) (.days 7) 604800000000000 rfl (by decide) (by decide +kernel)

/-- Daily values from 1 January on: the number of the day. -/
def daily : List Row := (List.range 31).map fun (i : Nat) => ⟨stepTime (date 1 1) + i * day, some (i + 1)⟩

/-- The test of the code: means of days 7 to 13 and 14 to 20. -/
example : align weeks daily = .ok [⟨stepTime (date 1 7), some 10⟩, ⟨stepTime (date 1 14), some 17⟩] := by decide +kernel

/-- Rows in another order give the same. -/
example : align weeks daily.reverse = align weeks daily := by decide +kernel

theorem daily_regular : Regular daily (stepTime (date 1 7)) (stepTime (date 1 7)) day 25 := by
  refine ⟨by decide, List.Perm.of_eq ?_⟩
  decide +kernel

/-- The last value may be the mean of a few rows only: here of one day. -/
example : align weeks (daily.take 14) = .ok [⟨stepTime (date 1 7), some 10⟩, ⟨stepTime (date 1 14), some 14⟩] := by decide +kernel

/-- A series that does not reach the last step, or begins after the first. -/
example : align weeks (daily.take 13) = .error .mismatch ∧ align weeks (daily.drop 7) = .error .mismatch := by decide +kernel

/-- Six days from 7 January on. -/
def days : List Timestep := (List.range 6).map fun i => ⟨date 1 (7 + i), i, 86400000000000⟩

theorem days_even : Even days (stepTime (date 1 7)) day :=
  C85_even (date 1 7) (date 1 12) (by decide) (by decide) (by decide) (.days 1) 86400000000000 rfl (by decide) (by decide +kernel)

/-- A value for every third day, one of them missing. -/
def every3 : List Row := [⟨stepTime (date 1 7), some 1⟩, ⟨stepTime (date 1 10), none⟩, ⟨stepTime (date 1 13), some 3⟩]

theorem every3_regular : Regular every3 (stepTime (date 1 7)) (stepTime (date 1 7)) (3 * day) 3 := by
  refine ⟨by decide, List.Perm.of_eq ?_⟩
  decide +kernel

/-- Missing values are filled as well. -/
example : (align days every3).toOption.map (·.map (·.value)) = some (List.replicate 6 (some 1)) := by decide +kernel

/-- The same steps: values as they are. -/
example : (align days daily).toOption.map (·.map (·.value)) = some [some 7, some 8, some 9, some 10, some 11, some 12] := by decide +kernel

theorem daily_days : Regular daily (stepTime (date 1 7)) (stepTime (date 1 7)) day 25 := daily_regular

/-- **C85 (gaps, refuted).** If the rows are not a multiple of the steps apart, values between the steps are lost: for steps of two days and a
value every three days, the value of 10 January is not used on 11 January. -/
theorem C85_gaps_refuted : ∃ (steps : List Timestep) (start d : Int) (rows : List Row) (out : List Row), Even steps start d ∧
    align steps rows = .ok out ∧ Regular rows start start (3 * day) 3 ∧
    ∃ (k : Nat) (t : Timestep) (r : Row), steps[k]? = some t ∧ out[k]? = some r ∧ ¬ Latest rows start (stepTime t.date) r.value := by
  refine ⟨[⟨date 1 7, 0, 172800000000000⟩, ⟨date 1 9, 1, 172800000000000⟩, ⟨date 1 11, 2, 172800000000000⟩], stepTime (date 1 7), 2 * day,
    [⟨stepTime (date 1 7), some 1⟩, ⟨stepTime (date 1 10), some 2⟩, ⟨stepTime (date 1 13), some 3⟩],
    [⟨stepTime (date 1 7), some 1⟩, ⟨stepTime (date 1 9), some 1⟩, ⟨stepTime (date 1 11), some 1⟩],
    C85_even (date 1 7) (date 1 12) (by decide) (by decide) (by decide) (.days 2) 172800000000000 rfl (by decide) (by decide +kernel),
    by decide +kernel, ⟨by decide, List.Perm.of_eq (by decide +kernel)⟩, 2, _, _, rfl, rfl, ?_⟩
  rintro ⟨r, hr, -, -, hv, hlater⟩
  have h1 : r.time < stepTime (date 1 10) := by
    rcases List.mem_cons.1 hr with rfl | hr
    · decide +kernel
    · rcases List.mem_cons.1 hr with rfl | hr
      · simp at hv
      · rcases List.mem_cons.1 hr with rfl | hr
        · norm_num at hv
        · cases hr
  have := hlater ⟨stepTime (date 1 10), some 2⟩ (by simp) h1 (by decide +kernel)
  simp at this

/-- Three months from February 2021 on. -/
def months : List Timestep :=
  [⟨date 2 1, 0, 28 * 86400000000000⟩, ⟨date 3 1, 1, 31 * 86400000000000⟩, ⟨date 4 1, 2, 30 * 86400000000000⟩]

example : build (date 2 1) (date 4 1) (.frequency false 1 0 0 0) = .ok months := by decide +kernel

/-- Weekly values from 1 February on. -/
def weekly : List Row := (List.range 14).map fun (i : Nat) => ⟨stepTime (date 2 1) + i * (7 * day), some i⟩

/-- **C85 (months, refuted).** For steps of a month, all windows have the length of the first: a series is accepted although the data of the
third step is from 29 March to 25 April instead of April. -/
theorem C85_monthly_refuted : build (date 2 1) (date 4 1) (.frequency false 1 0 0 0) = .ok months ∧ ∃ out, align months weekly = .ok out ∧
    (∃ (k : Nat) (t : Timestep) (r : Row), months[k]? = some t ∧ out[k]? = some r ∧ r.time ≠ stepTime t.date ∧
      ¬ Average ((between weekly (stepTime t.date) (stepTime t.date + milliseconds t.duration)).filterMap (·.value)) r.value) := by
  refine ⟨by decide +kernel, [⟨stepTime (date 2 1), some (3 / 2)⟩, ⟨stepTime (date 3 1), some (11 / 2)⟩, ⟨stepTime (date 3 29), some (19 / 2)⟩],
    by decide +kernel, 2, _, _, rfl, rfl, by decide +kernel, ?_⟩
  have : (between weekly (stepTime (date 4 1)) (stepTime (date 4 1) + milliseconds (30 * 86400000000000))).filterMap (·.value) = [9, 10, 11, 12] := by
    decide +kernel
  simp only [this]
  rintro (⟨h, -⟩ | ⟨-, x, hx, hs⟩)
  · cases h
  · cases hx
    norm_num at hs

/-- A file with two columns. -/
def file : Frame := ⟨["A", "B"], daily.map fun r => (r.time, [r.value, some 5])⟩

def loaded : String → Option Columns := fun s =>
  if s = "inflow" then some [("A", [some 10, some 17]), ("B", [some 5, some 5])] else none

example : (fromSchema weeks [("inflow", file)] fun _ => none).toOption.map (fun m => m "inflow") = some (loaded "inflow") := by decide +kernel

/-- References to a column, and to all columns. -/
def refs : List Ref := [⟨"inflow", some (.column "B")⟩, ⟨"inflow", some (.scenario "climate")⟩, ⟨"inflow", some (.column "B")⟩]

example : (loadRefs loaded [] refs).toOption.map (fun p => (p.1, p.1.map p.2.find)) =
    some ([⟨"B", some "inflow"⟩, ⟨"climate", some "inflow"⟩, ⟨"B", some "inflow"⟩],
      [some (.one [5, 5]), some (.two [[some 10, some 17], [some 5, some 5]] "climate"), some (.one [5, 5])]) := by decide +kernel

/-- The hypotheses of `C85_references_partial`. -/
example : (∀ r ∈ refs, Net.contains [] (refName loaded r) = false) ∧ Clear loaded refs := by
  refine ⟨by decide, ?_⟩
  intro r hr r' hr' hn data hm
  have : r = r' := by
    have key : ∀ r ∈ refs, ∀ r' ∈ refs, refName loaded r = refName loaded r' → r = r' := by decide +kernel
    exact key r hr r' hr' hn
  rw [← this]; exact hm

/-- A scenario group that has the name of a column: the reference to the column is given all columns. -/
example : (loadRefs loaded [] [⟨"inflow", some (.scenario "A")⟩, ⟨"inflow", some (.column "A")⟩]).toOption.map (fun p => p.1.map p.2.find) =
    some [some (.two [[some 10, some 17], [some 5, some 5]] "A"), some (.two [[some 10, some 17], [some 5, some 5]] "A")] := by decide +kernel

/-- A parameter of a node "inflow" that has the name of a column. -/
example : (loadRefs loaded [(⟨"A", some "inflow"⟩, .other 7)] [⟨"inflow", some (.column "A")⟩]).toOption.map (fun p => p.1.map p.2.find) =
    some [some (.other 7)] := by decide +kernel

example : Means loaded ⟨"inflow", some (.column "A")⟩ (.one [10, 17]) := ⟨_, rfl, [some 10, some 17], [10, 17], rfl, rfl, rfl⟩

end Verif.Timeseries
