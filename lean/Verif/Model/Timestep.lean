import Verif.Model.Calendar

/-!
# Time steps and the time domain, `/repo/pywr-core/src/timestep.rs`

Durations are integer numbers of nanoseconds (`SignedDuration`). The text of a frequency is parsed by `polars`, which is
not modelled: the model starts from the parsed parts.
-/

namespace Verif.Time

open Verif.Calendar

/-- `Timestep`, lines 107-111. -/
structure Timestep where
  date : DateTime
  index : Nat
  duration : Int
  deriving DecidableEq, Repr

/-- `Timestep::is_first`, lines 198-200. -/
def Timestep.isFirst (t : Timestep) : Bool := t.index == 0

/-- `PywrDuration::fractional_days`, lines 62-64 (exact instead of `f64`). -/
def fractionalDays (d : Int) : ℚ := (d : ℚ) / 1000000000 / 86400

/-- `Timestep::days`, lines 203-205. -/
def Timestep.days (t : Timestep) : ℚ := fractionalDays t.duration

/-- `PywrDuration::whole_days`, lines 52-59: `fract() == 0.0` and a cast to `i64`. -/
def wholeDays (d : Int) : Option Int :=
  if (fractionalDays d).den = 1 then some (fractionalDays d).num else none

/-- `PywrDuration::milliseconds`, lines 67-69 (`as_millis` truncates towards zero). -/
def milliseconds (d : Int) : Int := d.tdiv 1000000

/-- Unit letters used by `duration_string`. -/
inductive Unit' | d | h | m | s | ms
  deriving DecidableEq, Repr

/-- `PywrDuration::duration_string`, lines 73-97. The text is modelled by its tokens (number, unit); Rust's `/` and `%`
truncate towards zero. -/
def durationTokens (d : Int) : List (Int × Unit') :=
  let msecs := milliseconds d
  let days := msecs.tdiv 86400000
  let hours := (msecs.tmod 86400000).tdiv 3600000
  let minutes := (msecs.tmod 3600000).tdiv 60000
  let seconds := (msecs.tmod 60000).tdiv 1000
  let rest := msecs.tmod 1000
  (if days > 0 then [(days, .d)] else []) ++ (if hours > 0 then [(hours, .h)] else []) ++
  (if minutes > 0 then [(minutes, .m)] else []) ++ (if seconds > 0 then [(seconds, .s)] else []) ++
  (if rest > 0 then [(rest, .ms)] else [])

/-- `Timestep::day_of_year_index`, lines 223-229. `day_of_year()` is at least one, so the subtraction is exact. -/
def dayOfYearIndex (d : Date) : Nat :=
  let i := d.dayOfYear - 1
  if !(isLeap d.year) && decide (i > 58) then i + 1 else i

/-- `Timestep::fractional_day_of_year`, lines 236-244. -/
def fractionalDayOfYear (t : DateTime) : ℚ :=
  (dayOfYearIndex t.date : ℚ) + (t.ns : ℚ) / 1000000000 / 86400

/-- `Timestep + PywrDuration`, lines 247-257. -/
def Timestep.add (t : Timestep) (d : Nat) : Timestep :=
  { date := t.date.add d, index := t.index + 1, duration := d }

/-- `TimestepDuration`, lines 260-264. `Hours` and `Days` hold a `NonZeroU64`; `Frequency` is given by the parsed
`polars` duration: the sign flag and the parts. -/
inductive TimestepDuration
  | hours (n : Nat)
  | days (n : Nat)
  | frequency (negative : Bool) (months weeks days ns : Nat)
  deriving DecidableEq, Repr

/-- `TimeDomainBuilderError`, lines 267-274. `outOfFuel` is an artefact of the model: it stands for a loop that has not
ended. The theorems show that it is never returned. -/
inductive BuildError
  | noTimesteps
  | nonPositive
  | outOfFuel
  deriving DecidableEq, Repr

/-- The loop of `generate_timesteps_from_fixed_duration`, lines 306-310. -/
def fixedLoop (stop : DateTime) (duration : Nat) : Nat → Timestep → Option (List Timestep)
  | 0, _ => none
  | fuel + 1, current =>
    if current.date.le stop then (fixedLoop stop duration fuel (current.add duration)).map (current :: ·)
    else some []

/-- `generate_timesteps_from_fixed_duration`, lines 302-312. -/
def fixedSteps (start stop : DateTime) (duration : Nat) : Option (List Timestep) :=
  fixedLoop stop duration ((stop.instant - start.instant).toNat + 2) { date := start, index := 0, duration := duration }

/-- The loop of `generate_timesteps_from_frequency`, lines 341-348; `n` is `timesteps.len()`. -/
def freqLoop (start stop : DateTime) (span : Span) : Nat → DateTime → Nat → Option (List Timestep)
  | 0, _, _ => none
  | fuel + 1, current, n =>
    if current.le stop then
      let next := start.addSpan (span.mul (n + 1))
      let ts : Timestep := { date := current, index := n, duration := next.since current }
      (freqLoop start stop span fuel next (n + 1)).map (ts :: ·)
    else some []

/-- The span of lines 325-337. The four cases agree because the parts that are left out are zero there; the case
distinction is kept as in the code. -/
def mkSpan (months weeks days ns : Nat) : Span :=
  if days ≠ 0 ∧ months = 0 ∧ weeks = 0 ∧ ns = 0 then { months := 0, weeks := 0, days := days, ns := 0 }
  else if weeks ≠ 0 ∧ months = 0 ∧ days = 0 ∧ ns = 0 then { months := 0, weeks := weeks, days := 0, ns := 0 }
  else if months ≠ 0 ∧ weeks = 0 ∧ days = 0 ∧ ns = 0 then { months := months, weeks := 0, days := 0, ns := 0 }
  else { months := months, weeks := weeks, days := days, ns := ns }

/-- `generate_timesteps_from_frequency`, lines 317-351. -/
def freqSteps (start stop : DateTime) (negative : Bool) (months weeks days ns : Nat) :
    Except BuildError (List Timestep) :=
  if negative || (months == 0 && weeks == 0 && days == 0 && ns == 0) then .error .nonPositive
  else
    match freqLoop start stop (mkSpan months weeks days ns) ((stop.instant - start.instant).toNat + 2) start 0 with
    | none => .error .outOfFuel
    | some l => .ok l

/-- `TimeDomainBuilder::timesteps`, lines 289-299. -/
def timesteps (start stop : DateTime) (d : TimestepDuration) : Except BuildError (List Timestep) :=
  match d with
  | .hours n =>
    match fixedSteps start stop (n * (3600 * 1000000000)) with
    | none => .error .outOfFuel
    | some l => .ok l
  | .days n =>
    match fixedSteps start stop (n * 24 * (3600 * 1000000000)) with
    | none => .error .outOfFuel
    | some l => .ok l
  | .frequency neg mo w dd ns => freqSteps start stop neg mo w dd ns

/-- `TimeDomainBuilder::build`, lines 353-362. -/
def build (start stop : DateTime) (d : TimestepDuration) : Except BuildError (List Timestep) :=
  match timesteps start stop d with
  | .error e => .error e
  | .ok l => if l.isEmpty then .error .noTimesteps else .ok l

/-- `TimeDomain::fixed_step_duration`, lines 376-380. -/
def fixedStepDuration (l : List Timestep) : Option Int :=
  (l.head?.map (·.duration)).filter (fun d => l.all (fun t => t.duration == d))

end Verif.Time
