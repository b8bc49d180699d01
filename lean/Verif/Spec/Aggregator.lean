import Verif.Model.Aggregator

/-!
# Specification of periodic aggregation
-/

namespace Verif.Agg

open Verif.Calendar Verif.Time

/-- The moment at which a value ends. -/
def PeriodValue.finish (v : PeriodValue) : Int := v.start.instant + v.duration

/-- The values follow each other without gap or overlap from `a` to `b`. -/
def Tiles : Int → Int → List PeriodValue → Prop
  | a, b, [] => a = b
  | a, b, p :: ps => p.start.Valid ∧ p.start.instant = a ∧ 0 < p.duration ∧ Tiles (a + p.duration) b ps

instance Tiles.dec : ∀ a b ps, Decidable (Tiles a b ps)
  | a, b, [] => inferInstanceAs (Decidable (a = b))
  | a, b, p :: ps =>
    have := Tiles.dec (a + p.duration) b ps
    inferInstanceAs (Decidable (p.start.Valid ∧ p.start.instant = a ∧ 0 < p.duration ∧ Tiles (a + p.duration) b ps))

/-- Periods of the calendar: months and years. -/
def Civil : Frequency → Bool
  | .days _ => false
  | _ => true

/-- Two moments lie in the same month, or in the same year. -/
def SamePeriod (f : Frequency) (a b : DateTime) : Prop :=
  match f with
  | .monthly => a.date.year = b.date.year ∧ a.date.month = b.date.month
  | .annual => a.date.year = b.date.year
  | .days _ => False

instance (f : Frequency) (a b : DateTime) : Decidable (SamePeriod f a b) := by
  unfold SamePeriod; cases f <;> infer_instance

/-- All the time of a value lies in one period. -/
def Within (f : Frequency) (p : PeriodValue) : Prop :=
  ∀ t : DateTime, t.Valid → p.start.instant ≤ t.instant → t.instant < p.finish → SamePeriod f p.start t

/-- `pieces` is the value cut at the ends of the periods. -/
def IsSplit (f : Frequency) (v : PeriodValue) (pieces : List PeriodValue) : Prop :=
  Tiles v.start.instant v.finish pieces ∧ (∀ p ∈ pieces, p.value = v.value ∧ Within f p) ∧
    pieces.Pairwise (fun p q => ¬ SamePeriod f p.start q.start)

/-- Total duration of some values. -/
def total (ps : List PeriodValue) : Int := (ps.map (·.duration)).sum

/-- Values that are aggregated together: the first and the others. -/
structure Group where
  first : PeriodValue
  rest : List PeriodValue

/-- The values of a group. -/
def Group.values (g : Group) : List PeriodValue := g.first :: g.rest

/-- The last value of a group. -/
def Group.last (g : Group) : PeriodValue := g.rest.getLast?.getD g.first

/-- A record of the aggregation of a group, apart from its duration. -/
def Records (func : AggFunc) (g : Group) (r : PeriodValue) : Prop :=
  r.start = g.first.start ∧ calcPeriod func g.values = some r.value

end Verif.Agg
